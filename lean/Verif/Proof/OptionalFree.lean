import Verif.Proof.Optional
import Verif.Proof.Serializer
/-! # What a process without numpy reads is free of numpy -/
namespace Verif

theorem npFreeL_iff : ∀ l, npFreeL l = true ↔ ∀ v ∈ l, v.npFree = true
  | [] => by simp [npFreeL]
  | v :: vs => by simp [npFreeL, npFreeL_iff vs]

theorem npFreeD_iff : ∀ d, npFreeD d = true ↔ ∀ e ∈ d, e.1.npFree = true ∧ e.2.npFree = true
  | [] => by simp [npFreeD]
  | (k, v) :: vs => by simp [npFreeD, npFreeD_iff vs]

theorem lookupStr_mem {d : List (Val × Val)} {k : String} {v : Val} : lookupStr d k = some v → (Val.str k, v) ∈ d := by
  induction d with
  | nil => intro h; cases h
  | cons e r ih =>
    intro h
    obtain ⟨a, b⟩ := e
    cases a <;> simp only [lookupStr] at h
    case str s =>
      split at h
      · rename_i hs; cases h; subst hs; exact List.mem_cons_self
      · exact List.mem_cons_of_mem _ (ih h)
    all_goals exact List.mem_cons_of_mem _ (ih h)

theorem removeStr_sub {d : List (Val × Val)} {k : String} : ∀ e ∈ removeStr d k, e ∈ d := by
  induction d with
  | nil => intro e h; cases h
  | cons a r ih =>
    intro e h
    obtain ⟨x, y⟩ := a
    cases x <;> simp only [removeStr] at h
    case str s =>
      split at h
      · exact List.mem_cons_of_mem _ (ih e h)
      · rcases List.mem_cons.1 h with h | h
        · rw [h]; exact List.mem_cons_self
        · exact List.mem_cons_of_mem _ (ih e h)
    all_goals
      rcases List.mem_cons.1 h with h | h
      · rw [h]; exact List.mem_cons_self
      · exact List.mem_cons_of_mem _ (ih e h)

theorem npFreeD_remove {d : List (Val × Val)} (k : String) (h : npFreeD d = true) : npFreeD (removeStr d k) = true := by
  rw [npFreeD_iff] at h ⊢
  exact fun e he => h e (removeStr_sub e he)

theorem npFree_lookup {d : List (Val × Val)} {k : String} {v : Val} (h : npFreeD d = true)
    (hv : lookupStr d k = some v) : v.npFree = true :=
  ((npFreeD_iff d).1 h _ (lookupStr_mem hv)).2

theorem itemSet_free {d : List (Val × Val)} {k v : Val} (hd : npFreeD d = true) (hk : k.npFree = true)
    (hv : v.npFree = true) : npFreeD (itemSet d k v) = true := by
  induction d with
  | nil => simp [itemSet, npFreeD, hk, hv]
  | cons e r ih =>
    obtain ⟨a, b⟩ := e
    simp only [npFreeD, Bool.and_eq_true] at hd
    simp only [itemSet]
    split <;> simp only [npFreeD, Bool.and_eq_true]
    · exact ⟨⟨hd.1.1, hv⟩, hd.2⟩
    · exact ⟨hd.1, ih hd.2⟩

theorem dictOf_free {l : List (Val × Val)} (h : npFreeD l = true) : npFreeD (dictOf l) = true := by
  unfold dictOf
  have : ∀ (l : List (Val × Val)) (d : List (Val × Val)), npFreeD l = true → npFreeD d = true →
      npFreeD (l.foldl (fun d kv => itemSet d kv.1 kv.2) d) = true := by
    intro l
    induction l with
    | nil => intro d _ hd; exact hd
    | cons e r ih =>
      intro d hl hd
      obtain ⟨a, b⟩ := e
      simp only [npFreeD, Bool.and_eq_true] at hl
      exact ih _ hl.2 (itemSet_free hd hl.1.1 hl.1.2)
  exact this l [] h rfl

theorem need_free {d : List (Val × Val)} {k : String} {v : Val} (h : npFreeD d = true) (hv : need d k = .ok v) :
    v.npFree = true := by
  unfold need at hv
  split at hv
  · rename_i h1; cases hv; exact npFree_lookup h h1
  · cases hv

theorem items_free : ∀ {v : Val} {l : List Val}, v.npFree = true → v.items = some l → npFreeL l = true
  | .list _, _, h, hi => by cases hi; exact h
  | .tuple _, _, h, hi => by cases hi; exact h
  | .str s, _, _, hi => by
    cases hi
    induction s.toList with
    | nil => rfl
    | cons c r ih => simpa [npFreeL, Val.npFree] using ih
  | .bytes b, _, _, hi => by
    cases hi
    induction b with
    | nil => rfl
    | cons c r ih => simpa [npFreeL, Val.npFree] using ih
  | .dict d, _, h, hi => by
    cases hi
    have h : npFreeD d = true := h
    induction d with
    | nil => rfl
    | cons e r ih =>
      obtain ⟨a, b⟩ := e
      simp only [npFreeD, Bool.and_eq_true] at h
      simp only [List.map_cons, npFreeL, Bool.and_eq_true]
      exact ⟨h.1.1, ih h.2 h.2⟩
  | .sub _ v, _, h, hi => items_free (v := v) h hi

/-- What the base `decode` gives for a dict free of numpy that is not an array. -/
theorem decode_free {L : Lib} {R0 : RecvEnv} (hb : Bare L R0.lib) (ho : OwnFree R0) {d : List (Val × Val)} {v : Val}
    (hd : npFreeD d = true) (hn : (lookupStr d encodeKey).bind Val.text? ≠ some "ndarray") :
    decode R0 d = .ok v → v.npFree = true := by
  have hd' := npFreeD_remove encodeKey hd
  unfold decode
  cases h : lookupStr d encodeKey with
  | none => intro e; cases e; exact hd
  | some tn =>
    rw [h] at hn
    simp only [Option.bind_some] at hn
    cases tn with
    | none => intro e; cases e; exact hd'
    | proxy p => intro e; cases e
    | _ =>
      all_goals
        simp only
        split
        · rename_i h1; exact absurd h1 hn
        · split
          · intro e
            have h1 := hb.reads _ _ (hb.only _ _ e)
            rw [e] at h1
            split at h1
            · assumption
            · cases h1
          · intro e; cases e
          · intro e; cases e
        · split
          · rename_i h1
            have := need_free hd' h1
            simp [Val.npFree] at this
          · intro e; cases e
          · intro e; cases e
        · split
          · split
            · intro e; cases e; rfl
            · intro e; cases e
          · intro e; cases e
          · intro e; cases e
        · split
          · split
            · intro e; cases e; rfl
            · intro e; cases e
          · intro e; cases e
          · intro e; cases e
        · split
          · rename_i h1
            split
            · rename_i h2; intro e; cases e; exact items_free (need_free hd' h1) h2
            · intro e; cases e
          · intro e; cases e
        · intro e; cases e; rfl
        · unfold decodeProxy
          split
          · intro e; cases e
          · split
            · rename_i h3
              split
              · intro e; exact ho _ _ _ _ h3 e
              · intro e; cases e; rfl
            · intro e; cases e; rfl
        · intro e; cases e; exact hd'

theorem decodeIf_free {L : Lib} {R0 : RecvEnv} (hb : Bare L R0.lib) (ho : OwnFree R0) {d : List (Val × Val)} {v : Val}
    (hd : npFreeD d = true) : decodeIf false R0 d = .ok v → v.npFree = true := by
  unfold decodeIf
  split
  · intro e; cases e
  · rename_i h; exact decode_free hb ho hd h

theorem jdecodeIf_free {L : Lib} {R0 : RecvEnv} (hb : Bare L R0.lib) (ho : OwnFree R0) {d : List (Val × Val)} {v : Val}
    (hd : npFreeD d = true) : jdecodeIf false R0 d = .ok v → v.npFree = true := by
  unfold jdecodeIf
  split
  · intro e; cases e
  · rename_i h
    unfold jdecode
    split
    · rename_i h1; exact absurd h1 h
    · split
      · intro e; cases e
      · split
        · intro e; cases e; rfl
        · intro e; cases e
    · exact decode_free hb ho hd h

theorem exbind_ok {α β : Type} {x : Except Exc α} {f : α → Except Exc β} {b : β} (h : x.bind f = .ok b) :
    ∃ a, x = .ok a ∧ f a = .ok b := by
  cases x with
  | error e => cases h
  | ok a => exact ⟨a, rfl, h⟩

mutual
theorem unpackIf_free {L : Lib} {R0 : RecvEnv} (hb : Bare L R0.lib) (ho : OwnFree R0) :
    ∀ w v, unpackIf false R0 w = .ok v → v.npFree = true
  | .nil, v, h => by cases h; rfl
  | .bool _, v, h => by cases h; rfl
  | .int _, v, h => by cases h; rfl
  | .float _, v, h => by cases h; rfl
  | .str _, v, h => by cases h; rfl
  | .bin _, v, h => by cases h; rfl
  | .arr l, v, h => by
    rw [unpackIf_arr_bind] at h
    obtain ⟨vs, h1, h2⟩ := exbind_ok h
    cases h2; exact unpackIfL_free hb ho l vs h1
  | .map m, v, h => by
    rw [unpackIf_map_bind] at h
    obtain ⟨d, h1, h2⟩ := exbind_ok h
    exact decodeIf_free hb ho (dictOf_free (unpackIfM_free hb ho m d h1)) h2
theorem unpackIfL_free {L : Lib} {R0 : RecvEnv} (hb : Bare L R0.lib) (ho : OwnFree R0) :
    ∀ l vs, unpackIfL false R0 l = .ok vs → npFreeL vs = true
  | [], vs, h => by cases h; rfl
  | w :: ws, vs, h => by
    rw [unpackIfL_bind] at h
    obtain ⟨v, h1, h⟩ := exbind_ok h
    obtain ⟨vs', h2, h⟩ := exbind_ok h
    cases h
    simp only [npFreeL, Bool.and_eq_true]
    exact ⟨unpackIf_free hb ho w v h1, unpackIfL_free hb ho ws vs' h2⟩
theorem unpackIfM_free {L : Lib} {R0 : RecvEnv} (hb : Bare L R0.lib) (ho : OwnFree R0) :
    ∀ m d, unpackIfM false R0 m = .ok d → npFreeD d = true
  | [], vs, h => by cases h; rfl
  | (k, w) :: r, d, h => by
    rw [unpackIfM_bind] at h
    obtain ⟨kv, h0, h⟩ := exbind_ok h
    split at h
    · cases h
    · obtain ⟨v, h1, h⟩ := exbind_ok h
      obtain ⟨d', h2, h⟩ := exbind_ok h
      cases h
      simp only [npFreeD, Bool.and_eq_true]
      exact ⟨⟨unpackIf_free hb ho k kv h0, unpackIf_free hb ho w v h1⟩, unpackIfM_free hb ho r d' h2⟩
end

mutual
theorem junpackIf_free {L : Lib} {R0 : RecvEnv} (hb : Bare L R0.lib) (ho : OwnFree R0) :
    ∀ w v, junpackIf false R0 w = .ok v → v.npFree = true
  | .nil, v, h => by cases h; rfl
  | .bool _, v, h => by cases h; rfl
  | .int _, v, h => by cases h; rfl
  | .float _, v, h => by cases h; rfl
  | .str _, v, h => by cases h; rfl
  | .bin _, v, h => by cases h
  | .arr l, v, h => by
    rw [junpackIf_arr_bind] at h
    obtain ⟨vs, h1, h2⟩ := exbind_ok h
    cases h2; exact junpackIfL_free hb ho l vs h1
  | .map m, v, h => by
    rw [junpackIf_map_bind] at h
    obtain ⟨d, h1, h2⟩ := exbind_ok h
    exact jdecodeIf_free hb ho (dictOf_free (junpackIfM_free hb ho m d h1)) h2
theorem junpackIfL_free {L : Lib} {R0 : RecvEnv} (hb : Bare L R0.lib) (ho : OwnFree R0) :
    ∀ l vs, junpackIfL false R0 l = .ok vs → npFreeL vs = true
  | [], vs, h => by cases h; rfl
  | w :: ws, vs, h => by
    rw [junpackIfL_bind] at h
    obtain ⟨v, h1, h⟩ := exbind_ok h
    obtain ⟨vs', h2, h⟩ := exbind_ok h
    cases h
    simp only [npFreeL, Bool.and_eq_true]
    exact ⟨junpackIf_free hb ho w v h1, junpackIfL_free hb ho ws vs' h2⟩
theorem junpackIfM_free {L : Lib} {R0 : RecvEnv} (hb : Bare L R0.lib) (ho : OwnFree R0) :
    ∀ m d, junpackIfM false R0 m = .ok d → npFreeD d = true
  | [], vs, h => by cases h; rfl
  | (k, w) :: r, d, h => by
    cases k with
    | str k =>
      rw [junpackIfM_bind] at h
      obtain ⟨v, h1, h⟩ := exbind_ok h
      obtain ⟨d', h2, h⟩ := exbind_ok h
      cases h
      simp only [npFreeD, Val.npFree, Bool.and_eq_true, true_and]
      exact ⟨junpackIf_free hb ho w v h1, junpackIfM_free hb ho r d' h2⟩
    | _ => simp [junpackIfM] at h
end

end Verif
