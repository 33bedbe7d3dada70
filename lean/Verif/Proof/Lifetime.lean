import Verif.Spec.Lifetime
import Verif.Props.Refs
namespace Verif

/-- Every operation on the table keeps its history reachable. -/
theorem lives_reach {idOf ok s h} (hl : Lives idOf ok s h) : Reach idOf h s.refs := by
  induction hl with
  | init => exact .init
  | @step s h e _ _ h1 h2 ih =>
    cases e with
    | obtain o =>
      have := ih.step (.get o []) (h1 o rfl)
      simp only [LifeSt.step]
      generalize hx : s.refs.step idOf (.get o []) = x at *
      obtain ⟨t, out⟩ := x
      cases out <;> exact this
    | setAuto i b => simp only [LifeSt.step]; cases hg : s.live.get? i <;> simpa using ih
    | derive i => simp only [LifeSt.step]; cases hg : s.live.get? i <;> simpa [LifeSt.add] using ih
    | copy i => simp only [LifeSt.step]; cases hg : s.live.get? i <;> simpa [LifeSt.add] using ih
    | send i => simp only [LifeSt.step]; cases hg : s.live.get? i <;> simpa [LifeSt.add] using ih
    | collect i =>
      simp only [LifeSt.step]
      cases hg : s.live.get? i with
      | none => simpa using ih
      | some p =>
        simp only
        split
        · simpa using ih
        · split
          · exact ih.step (.delete p.oid p.rid) trivial
          · simpa using ih
    | delete i =>
      simp only [LifeSt.step]
      cases hg : s.live.get? i with
      | none => simpa using ih
      | some p => exact ih.step (.delete p.oid p.rid) trivial
    | other op =>
      exact ih.step op (h2 op rfl)

/-- Book-keeping of the living proxies, in every program. -/
structure LifeInv (s : LifeSt) : Prop where
  bound : ∀ i p, s.live.get? i = some p → i < s.next
  parent : ∀ i p j, s.live.get? i = some p → p.origin = .derived j → j < i ∧
    ∃ q, s.live.get? j = some q ∧ q.oid = p.oid ∧ q.rid = p.rid ∧ q.obj = p.obj

theorem add_get {s : LifeSt} {p : LiveProxy} {i : Nat} : (s.add p).live.get? i = if s.next = i then some p else s.live.get? i := by
  unfold LifeSt.add; exact Dict.get?_set ..

theorem hasChild_false {s : LifeSt} {i j : Nat} {p : LiveProxy} (h : s.hasChild i = false) (hg : s.live.get? j = some p) :
    p.origin ≠ .derived i := by
  intro ho
  have := Dict.get?_some_mem hg
  unfold LifeSt.hasChild at h
  rw [List.any_eq_false] at h
  exact h _ this (by simpa using ho)

theorem LifeInv.add {s : LifeSt} (h : LifeInv s) {p : LiveProxy} (hp : ∀ j, p.origin = .derived j →
    ∃ q, s.live.get? j = some q ∧ q.oid = p.oid ∧ q.rid = p.rid ∧ q.obj = p.obj) : LifeInv (s.add p) := by
  constructor
  · intro i q hq
    rw [add_get] at hq
    split at hq
    · subst_vars; show s.next < s.next + 1; omega
    · have := h.bound i q hq; show i < s.next + 1; omega
  · intro i q j hq ho
    rw [add_get] at hq
    split at hq
    · rename_i hi
      cases hq
      obtain ⟨q, h1, h2⟩ := hp j ho
      have := h.bound j q h1
      refine ⟨by omega, q, ?_, h2⟩
      rw [add_get, if_neg (by omega)]; exact h1
    · obtain ⟨h0, q', h1, h2⟩ := h.parent i q j hq ho
      have := h.bound j q' h1
      refine ⟨h0, q', ?_, h2⟩
      rw [add_get, if_neg (by omega)]; exact h1

theorem LifeInv.refs {s : LifeSt} (h : LifeInv s) (t : Refs) : LifeInv { s with refs := t } := ⟨h.bound, h.parent⟩

theorem LifeInv.set {s : LifeSt} (h : LifeInv s) {i p b} (hp : s.live.get? i = some p) :
    LifeInv { s with live := s.live.set i { p with auto := b } } := by
  have key : ∀ k q, (s.live.set i { p with auto := b }).get? k = some q →
      ∃ q', s.live.get? k = some q' ∧ q'.oid = q.oid ∧ q'.rid = q.rid ∧ q'.obj = q.obj ∧ q'.origin = q.origin := by
    intro k q hq
    rw [Dict.get?_set] at hq
    split at hq
    · subst_vars; cases hq; exact ⟨p, hp, rfl, rfl, rfl, rfl⟩
    · exact ⟨q, hq, rfl, rfl, rfl, rfl⟩
  constructor
  · intro k q hq
    obtain ⟨q', h1, _⟩ := key k q hq
    exact h.bound k q' h1
  · intro k q j hq ho
    obtain ⟨q', h1, h2, h3, h4, h5⟩ := key k q hq
    obtain ⟨h0, r, h6, h7, h8, h9⟩ := h.parent k q' j h1 (h5.trans ho)
    refine ⟨h0, ?_⟩
    show ∃ x, (s.live.set i { p with auto := b }).get? j = some x ∧ _
    rw [Dict.get?_set]
    by_cases hi : i = j
    · subst hi
      rw [hp] at h6; cases h6
      exact ⟨_, if_pos rfl, by simp [h7, h2], by simp [h8, h3], by simp [h9, h4]⟩
    · exact ⟨r, by rw [if_neg hi]; exact h6, by rw [h7, h2], by rw [h8, h3], by rw [h9, h4]⟩

theorem LifeInv.erase {s : LifeSt} (h : LifeInv s) {i} (hc : s.hasChild i = false) : LifeInv { s with live := s.live.erase i } := by
  have key : ∀ k q, (s.live.erase i).get? k = some q → i ≠ k ∧ s.live.get? k = some q := by
    intro k q hq
    rw [Dict.get?_erase] at hq
    split at hq
    · cases hq
    · exact ⟨‹_›, hq⟩
  constructor
  · intro k q hq; exact h.bound k q (key k q hq).2
  · intro k q j hq ho
    obtain ⟨h1, h2⟩ := key k q hq
    obtain ⟨h0, r, h3, h4⟩ := h.parent k q j h2 ho
    refine ⟨h0, r, ?_, h4⟩
    show (s.live.erase i).get? j = some r
    rw [Dict.get?_erase, if_neg]
    · exact h3
    · rintro rfl; exact hasChild_false hc h2 ho

theorem lives_inv {idOf ok s h} (hl : Lives idOf ok s h) : LifeInv s := by
  induction hl with
  | init => exact ⟨by simp [LifeSt.init], by simp [LifeSt.init]⟩
  | @step s h e _ _ _ _ ih =>
    cases e with
    | obtain o =>
      simp only [LifeSt.step]
      split
      · exact (ih.refs _).add (by simp)
      · exact ih.refs _
    | setAuto i b => simp only [LifeSt.step]; cases hg : s.live.get? i <;> simp only <;> first | exact ih | exact ih.set hg
    | derive i =>
      simp only [LifeSt.step]
      cases hg : s.live.get? i with
      | none => exact ih
      | some p => exact ih.add (by intro j hj; cases hj; exact ⟨p, hg, rfl, rfl, rfl⟩)
    | copy i =>
      simp only [LifeSt.step]
      cases hg : s.live.get? i with
      | none => exact ih
      | some p => exact ih.add (by intro j hj; cases hj)
    | send i =>
      simp only [LifeSt.step]
      cases hg : s.live.get? i with
      | none => exact ih
      | some p => exact ih.add (by intro j hj; cases hj)
    | collect i =>
      simp only [LifeSt.step]
      cases hg : s.live.get? i with
      | none => exact ih
      | some p =>
        simp only
        split
        · exact ih
        · rename_i hc
          have := ih.erase (by simpa using hc)
          split
          · exact this.refs _
          · exact this
    | delete i =>
      simp only [LifeSt.step]
      cases hg : s.live.get? i with
      | none => exact ih
      | some p => exact ih.refs _
    | other op => exact ih.refs _

/-- The handle of a proxy. -/
def LiveProxy.handle (p : LiveProxy) : Handle := ⟨p.oid, p.rid, p.obj⟩

/-- Book-keeping of the references, in careful programs. -/
structure HeldInv (s : LifeSt) (h : RefHistory) : Prop where
  held : ∀ i p, s.live.get? i = some p → p.origin = .obtained → p.handle ∈ outstanding h
  uniq : ∀ i p j q, s.live.get? i = some p → p.origin = .obtained → s.live.get? j = some q → q.origin = .obtained →
    p.rid = q.rid → i = j

theorem HeldInv.sub {s s' : LifeSt} {h} (hi : HeldInv s h)
    (hs : ∀ k q, s'.live.get? k = some q → q.origin = .obtained → ∃ q', s.live.get? k = some q' ∧ q'.handle = q.handle ∧ q'.origin = .obtained) :
    HeldInv s' h := by
  constructor
  · intro i p h1 h2
    obtain ⟨q, h3, h4, h5⟩ := hs i p h1 h2
    rw [← h4]; exact hi.held i q h3 h5
  · intro i p j q h1 h2 h3 h4 h5
    obtain ⟨p', h6, h7, h8⟩ := hs i p h1 h2
    obtain ⟨q', h9, h10, h11⟩ := hs j q h3 h4
    simp only [LiveProxy.handle, Handle.mk.injEq] at h7 h10
    exact hi.uniq i p' j q' h6 h8 h9 h11 (by omega)

/-- what an operation does to the outstanding references -/
theorem outstanding_step {idOf h t} (op : RefOp) (x : Handle) (hx : x ∈ outstanding h)
    (hne : ∀ oid rid, op = .delete oid rid → ¬ (x.oid = oid ∧ x.rid = rid)) :
    x ∈ outstanding (h ++ [(op, (Refs.step idOf t op).2)]) := by
  cases op with
  | get o k =>
    cases hd : (t.step idOf (.get o k)).2 with
    | proxy a b => rw [outstanding_append_get]; simp [hx]
    | raised e => rw [outstanding_append_raised]; exact hx
    | deleted => simp only [Refs.step] at hd; split at hd <;> simp at hd
  | delete a b =>
    cases hd : (t.step idOf (.delete a b)).2 with
    | deleted => rw [outstanding_append_del]; exact List.mem_filter.2 ⟨hx, decide_eq_true (hne a b rfl)⟩
    | raised e => rw [outstanding_append_raised]; exact hx
    | proxy a b => simp only [Refs.step] at hd; split at hd <;> simp at hd

theorem deleted_gone {idOf h t} (hr : Reach idOf h t) (a b : Nat) :
    ∀ x ∈ outstanding (h ++ [(.delete a b, (t.step idOf (.delete a b)).2)]), ¬ (x.oid = a ∧ x.rid = b) := by
  intro x hx
  cases hd : (t.step idOf (.delete a b)).2 with
  | deleted => rw [hd, outstanding_append_del] at hx; exact of_decide_eq_true (List.mem_filter.1 hx).2
  | raised e =>
    rw [hd, outstanding_append_raised] at hx
    rintro hxe
    have := (C05_delete_succeeds_iff hr a b).2 ⟨x, hx, hxe⟩
    rw [hd] at this; cases this
  | proxy a b => simp only [Refs.step] at hd; split at hd <;> simp at hd

theorem lives_held {idOf s h} (hl : Lives idOf Careful s h) : HeldInv s h := by
  induction hl with
  | init => exact ⟨by simp [LifeSt.init], by simp [LifeSt.init]⟩
  | @step s h e hl hok h1 h2 ih =>
    have hr := lives_reach hl
    have hinv := lives_inv hl
    cases e with
    | obtain o =>
      have hr' := hr.step (.get o []) (h1 o rfl)
      have hkeep := fun x hx => outstanding_step (idOf := idOf) (h := h) (t := s.refs) (.get o []) x hx (by simp)
      have hnd := C02_ref_ids_distinct hr'
      simp only [LifeSt.step]
      generalize hx : s.refs.step idOf (.get o []) = x at *
      obtain ⟨t, out⟩ := x
      cases out with
      | proxy oid rid =>
        simp only at *
        rw [handedOut_append, List.pairwise_append] at hnd
        have hfresh : ∀ i p, s.live.get? i = some p → p.origin = .obtained → p.rid ≠ rid := by
          intro i p h3 h4
          exact hnd.2.2 _ (hr.inv.sub _ (ih.held i p h3 h4)) ⟨oid, rid, o⟩ (by simp [handedBy])
        constructor
        · intro i p h3 h4
          rw [add_get] at h3
          split at h3
          · cases h3
            rw [outstanding_append_get]; simp [LiveProxy.handle]
          · exact hkeep _ (ih.held i p h3 h4)
        · intro i p j q h3 h4 h5 h6 h7
          rw [add_get] at h3 h5
          split at h3 <;> split at h5
          · omega
          · cases h3; exact absurd h7.symm (hfresh j q h5 h6)
          · cases h5; exact absurd h7 (hfresh i p h3 h4)
          · exact ih.uniq i p j q h3 h4 h5 h6 h7
      | deleted => exact ⟨fun i p h3 h4 => hkeep _ (ih.held i p h3 h4), ih.uniq⟩
      | raised e => exact ⟨fun i p h3 h4 => hkeep _ (ih.held i p h3 h4), ih.uniq⟩
    | setAuto i b =>
      simp only [LifeSt.step]
      cases hg : s.live.get? i with
      | none => simpa using ih
      | some p =>
        simp only [List.append_nil]
        refine ih.sub ?_
        intro k q hq ho
        simp only [Dict.get?_set] at hq
        split at hq
        · subst_vars; cases hq; exact ⟨p, hg, rfl, ho⟩
        · exact ⟨q, hq, rfl, ho⟩
    | derive i =>
      simp only [LifeSt.step]
      cases hg : s.live.get? i with
      | none => simpa using ih
      | some p =>
        simp only [List.append_nil]
        refine ih.sub ?_
        intro k q hq ho
        rw [add_get] at hq
        split at hq
        · cases hq; cases ho
        · exact ⟨q, hq, rfl, ho⟩
    | copy i =>
      simp only [LifeSt.step]
      cases hg : s.live.get? i with
      | none => simpa using ih
      | some p =>
        simp only [List.append_nil]
        refine ih.sub ?_
        intro k q hq ho
        rw [add_get] at hq
        split at hq
        · cases hq; cases ho
        · exact ⟨q, hq, rfl, ho⟩
    | send i =>
      simp only [LifeSt.step]
      cases hg : s.live.get? i with
      | none => simpa using ih
      | some p =>
        simp only [List.append_nil]
        refine ih.sub ?_
        intro k q hq ho
        rw [add_get] at hq
        split at hq
        · cases hq; cases ho
        · exact ⟨q, hq, rfl, ho⟩
    | collect i =>
      simp only [LifeSt.step]
      cases hg : s.live.get? i with
      | none => simpa using ih
      | some p =>
        simp only
        split
        · simpa using ih
        · have hsub : ∀ k q, (s.live.erase i).get? k = some q → i ≠ k ∧ s.live.get? k = some q := by
            intro k q hq
            rw [Dict.get?_erase] at hq
            split at hq
            · cases hq
            · exact ⟨‹_›, hq⟩
          split
          · rename_i ha
            have ho := hok p hg ha
            constructor
            · intro k q hq ho'
              obtain ⟨h3, h4⟩ := hsub k q hq
              refine outstanding_step _ _ (ih.held k q h4 ho') ?_
              intro a b hab hc
              cases hab
              exact h3 (ih.uniq i p k q hg ho h4 ho' hc.2.symm)
            · intro k q k' q' h3 h4 h5 h6
              exact ih.uniq k q k' q' (hsub k q h3).2 h4 (hsub k' q' h5).2 h6
          · simp only [List.append_nil]
            exact ih.sub (fun k q hq ho => ⟨q, (hsub k q hq).2, rfl, ho⟩)
    | delete i => exact absurd hok (by simp [Careful])
    | other op =>
      constructor
      · intro k q hq ho
        refine outstanding_step _ _ (ih.held k q hq ho) ?_
        rintro a b rfl
        exact hok k q hq
      · exact ih.uniq

theorem rooted_handle {idOf s h} (hl : Lives idOf Careful s h) {i p} (hr : Rooted s i) (hp : s.live.get? i = some p) :
    p.handle ∈ outstanding h := by
  induction hr generalizing p with
  | obtained h1 h2 => rw [h1] at hp; cases hp; exact (lives_held hl).held _ _ h1 h2
  | derived h1 h2 _ ih =>
    rw [h1] at hp; cases hp
    obtain ⟨_, q, h3, h4, h5, h6⟩ := (lives_inv hl).parent _ _ _ h1 h2
    have := ih h3
    simpa [LiveProxy.handle, h4, h5, h6] using this

end Verif
