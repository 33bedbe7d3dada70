import Verif.Spec.Proxy
import Verif.Proof.Transport
namespace Verif

/-! ## Dictionaries -/

theorem Dict.get?_update {κ ν : Type} [DecidableEq κ] (k : κ) : ∀ (e d : Dict κ ν), e.WF →
    (d.update e).get? k = (match e.get? k with | some v => some v | none => d.get? k)
  | [], d, _ => rfl
  | (a, b) :: e, d, h => by
    simp only [Dict.WF, List.map_cons, List.nodup_cons] at h
    have ih := Dict.get?_update k e (d.set a b) h.2
    simp only [Dict.update, List.foldl_cons] at ih ⊢
    rw [ih]
    simp only [Dict.get?, Dict.get?_set]
    by_cases hk : a = k
    · subst hk
      have : Dict.get? e a = none := (Dict.get?_eq_none_iff e a).2 h.1
      simp [this]
    · simp [hk]

theorem Dict.keys_update {κ ν : Type} [DecidableEq κ] : ∀ (e d : Dict κ ν), (∀ k ∈ e.map (·.1), k ∈ d.map (·.1)) →
    (d.update e).map (·.1) = d.map (·.1)
  | [], d, _ => rfl
  | (a, b) :: e, d, h => by
    have ha : a ∈ d.map (·.1) := h a (by simp)
    have hk : (d.set a b).map (·.1) = d.map (·.1) := by rw [Dict.keys_set, if_pos ha]
    have ih := Dict.keys_update e (d.set a b) (by intro k hk'; rw [hk]; exact h k (by simp only [List.map_cons, List.mem_cons]; exact .inr hk'))
    simp only [Dict.update, List.foldl_cons] at ih ⊢
    rw [ih, hk]

theorem Dict.ext_of_keys {κ ν : Type} [DecidableEq κ] : ∀ (d e : Dict κ ν), d.map (·.1) = e.map (·.1) → d.WF →
    (∀ k ∈ d.map (·.1), d.get? k = e.get? k) → d = e
  | [], [], _, _, _ => rfl
  | [], _ :: _, h, _, _ => by simp at h
  | _ :: _, [], h, _, _ => by simp at h
  | (a, b) :: d, (a', b') :: e, h, hw, hg => by
    simp only [List.map_cons, List.cons.injEq] at h
    obtain ⟨rfl, h⟩ := h
    simp only [Dict.WF, List.map_cons, List.nodup_cons] at hw
    have h1 : b = b' := by
      have := hg a (by simp)
      simpa [Dict.get?] using this
    subst h1
    rw [Dict.ext_of_keys d e h hw.2]
    intro k hk
    have hne : a ≠ k := by rintro rfl; exact hw.1 hk
    have := hg k (by simp only [List.map_cons, List.mem_cons]; exact .inr hk)
    simpa [Dict.get?, hne] using this

theorem Dict.update_all {κ ν : Type} [DecidableEq κ] {d e : Dict κ ν} (h : d.map (·.1) = e.map (·.1)) (hw : d.WF) : d.update e = e := by
  have hwe : e.WF := by unfold Dict.WF; rw [← h]; exact hw
  have hk := Dict.keys_update e d (by intro k hk; rw [h]; exact hk)
  refine Dict.ext_of_keys _ _ (hk.trans h) (by unfold Dict.WF; rw [hk]; exact hw) ?_
  intro k hk'
  rw [hk, h] at hk'
  rw [Dict.get?_update k e d hwe]
  cases hg : e.get? k with
  | some v => rfl
  | none => exact absurd hk' ((Dict.get?_eq_none_iff e k).1 hg)

theorem Dict.erase_eq_filter {κ ν : Type} [DecidableEq κ] : ∀ (d : Dict κ ν) (k : κ), d.erase k = d.filter (fun e => e.1 ≠ k)
  | [], _ => rfl
  | (a, b) :: d, k => by
    have := Dict.erase_eq_filter d k
    simp only [Dict.erase, List.filter_cons]
    by_cases h : a = k <;> simp [h, this]

/-! ## Options -/

theorem checkOptions_ok {opts : Dict String Val} : ∀ {l : List (String × Val)}, checkOptions opts l = .ok () ↔ ∀ e ∈ l, opts.has e.1 = true
  | [] => by simp [checkOptions]
  | (k, v) :: r => by
    have := checkOptions_ok (opts := opts) (l := r)
    unfold checkOptions
    split
    · rename_i h; simp [this, h]
    · rename_i h; simp [h]

theorem checkOptions_error {opts : Dict String Val} {e} : ∀ {l : List (String × Val)}, checkOptions opts l = .error e →
    e = .keyError ∧ ∃ x ∈ l, opts.has x.1 = false
  | [], h => by simp [checkOptions] at h
  | (k, v) :: r, h => by
    unfold checkOptions at h
    split at h
    · obtain ⟨h1, x, h2, h3⟩ := checkOptions_error h
      exact ⟨h1, x, List.mem_cons_of_mem _ h2, h3⟩
    · rename_i hk
      simp only [Except.error.injEq] at h
      exact ⟨h.symm, _, List.mem_cons_self, by simpa using hk⟩

theorem Dict.has_iff {κ ν : Type} [DecidableEq κ] (d : Dict κ ν) (k : κ) : d.has k = true ↔ k ∈ d.map (·.1) := by
  have := Dict.get?_eq_none_iff d k
  unfold Dict.has
  cases h : d.get? k with
  | none => simp only [Option.isSome_none, Bool.false_eq_true, false_iff]; exact this.1 h
  | some v =>
    simp only [Option.isSome_some, true_iff]
    exact Classical.byContradiction fun hn => by rw [this.2 hn] at h; simp at h

/-- A proxy has exactly the known options. -/
def PObj.Ok (p : PObj) : Prop := p.opts.map (·.1) = optionNames

theorem optionNames_nodup : optionNames.Nodup := by decide +kernel
theorem PObj.Ok.wf {p : PObj} (h : p.Ok) : p.opts.WF := by unfold Dict.WF; rw [h]; exact optionNames_nodup
theorem PObj.Ok.noSelf {p : PObj} (h : p.Ok) : p.opts.has "self" = false := by
  cases hs : p.opts.has "self" with
  | false => rfl
  | true =>
    have := (Dict.has_iff _ _).1 hs
    rw [h] at this; revert this; decide

theorem new_copies {x : Proxy} {o : Dict String Val} (h : o.map (·.1) = optionNames) : PObj.new x o = .ok ⟨x, o⟩ := by
  have hp : PObj.Ok ⟨x, o⟩ := h
  have h1 : checkOptions defaultOptions o = .ok () := by
    rw [checkOptions_ok]
    intro e he
    rw [Dict.has_iff]
    show e.1 ∈ optionNames
    rw [← h]; exact List.mem_map_of_mem (f := (·.1)) he
  have h2 : defaultOptions.update o = o := Dict.update_all (by rw [h]; rfl) (show (defaultOptions.map (·.1)).Nodup from by decide +kernel)
  unfold PObj.new PObj.setOptions
  simp [hp.noSelf, h1, h2]

theorem deferredAttr_eq {p : PObj} (h : p.Ok) (a : String) :
    p.deferredAttr a = .ok ⟨{ p.proxy with attrs := p.proxy.attrs ++ [a] }, p.opts⟩ := new_copies h

theorem setOptions_ok {p q : PObj} {kw r} (h : p.Ok) (hs : p.setOptions kw = (q, r)) : q.Ok := by
  unfold PObj.setOptions at hs
  split at hs
  · cases hs; exact h
  · split at hs
    · cases hs; exact h
    · rename_i hc
      cases hs
      show (p.opts.update kw).map (·.1) = optionNames
      rw [Dict.keys_update, h]
      intro k hk
      obtain ⟨e, he, rfl⟩ := List.mem_map.1 hk
      exact (Dict.has_iff _ _).1 (checkOptions_ok.1 hc e he)

theorem setParent_ok {p q : PObj} {answer done v rs} (h : p.setParent answer done v = (rs, .ok q)) : q = p := by
  unfold PObj.setParent at h
  split at h
  · cases h
  · split at h <;> cases h; rfl

theorem copy_ok {p q : PObj} {par v rs} (h : p.Ok) (hc : p.copy par v = (rs, .ok q)) : q = p := by
  unfold PObj.copy at hc
  rw [new_copies h] at hc
  simp only at hc
  split at hc
  · cases hc; rfl
  · split at hc
    · cases hc
    · cases hc
    · split at hc
      · cases hc
      · split at hc
        · cases hc
        · exact setParent_ok hc
    · split at hc
      · cases hc
      · split at hc
        · cases hc
        · split at hc
          · cases hc
          · exact setParent_ok hc
      · cases hc

theorem new_ok {x : Proxy} {kw p} (hn : PObj.new x kw = .ok p) : p.Ok := by
  unfold PObj.new at hn
  split at hn
  · rename_i hs
    cases hn
    exact setOptions_ok (p := ⟨_, defaultOptions⟩) rfl hs
  · simp at hn

theorem received_ok {x : Proxy} {d q} (hn : PObj.received x d = .ok q) : q.Ok := by
  unfold PObj.received at hn
  split at hn
  · cases hn
  · rename_i p hp
    split at hn
    · rename_i hs
      cases hn
      exact setOptions_ok (new_ok hp) hs
    · cases hn

theorem Made.ok {p : PObj} (h : Made p) : p.Ok := by
  induction h with
  | new hn => exact new_ok hn
  | set _ hs ih => exact setOptions_ok ih hs
  | derive _ hd ih => rw [deferredAttr_eq ih] at hd; cases hd; exact ih
  | copy _ hc ih => rw [copy_ok ih hc]; exact ih
  | restored => rfl
  | received hn => exact received_ok hn

end Verif
