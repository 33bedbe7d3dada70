import Verif.Spec.JsonDigits
import Verif.Proof.Json
/-! # JSON with a limit on the digits of an integer -/
namespace Verif

theorem tooLong_short (lim : Nat) (i : Int) : tooLong lim i = !shortItem lim (.int i) := by
  simp only [tooLong, shortItem]
  by_cases h : 10 ^ lim ≤ i.natAbs
  · simp [h]
  · simp [h, Nat.lt_of_not_le h]

/-- What a limit changes: `a` is the outcome without it, `b` with it. -/
structure Limits {β : Type} (ok : β → Bool) (a b : Refs × Except Exc β) : Prop where
  same : ∀ t w, a = (t, .ok w) → ok w = true → b = (t, .ok w)
  long : ∀ t w, a = (t, .ok w) → ok w = false → b.2 = .error .valueError
  fail : ∀ t e, a = (t, .error e) → b = (t, .error e) ∨ b.2 = .error .valueError

theorem Limits.refl {β : Type} {ok : β → Bool} {a : Refs × Except Exc β} (h : ∀ t w, a = (t, .ok w) → ok w = true) : Limits ok a a :=
  ⟨fun _ _ e _ => e, fun t w e h' => (by rw [h t w e] at h'; cases h'), fun _ _ e => Or.inl e⟩

theorem Limits.mono {β : Type} {ok ok' : β → Bool} {a b : Refs × Except Exc β} (h : Limits ok a b) (e : ∀ w, ok w = ok' w) : Limits ok' a b :=
  ⟨fun t w h1 h2 => h.same t w h1 (by rw [e]; exact h2), fun t w h1 h2 => h.long t w h1 (by rw [e]; exact h2), h.fail⟩

/-- a loop over items -/
theorem mapS_limits {α β : Type} {f g : Refs → α → Refs × Except Exc β} {ok : α → β → Bool} (h : ∀ t a, Limits (ok a) (f t a) (g t a)) :
    ∀ (l : List α) t, Limits (fun ws => (l.zip ws).all fun p => ok p.1 p.2) (mapS f t l) (mapS g t l)
  | [], t => Limits.refl (by intro t' w e; rfl)
  | a :: as, t => by
    have ha := h t a
    rcases hf : f t a with ⟨t1, r1⟩
    cases r1 with
    | error e =>
      rcases ha.fail t1 e hf with h1 | h1
      · simp only [mapS, hf, h1]
        exact Limits.refl (by intro _ _ e; simp at e)
      · refine ⟨?_, ?_, ?_⟩ <;> intro t' x hx
        · simp [mapS, hf] at hx
        · simp [mapS, hf] at hx
        · right
          rcases hg : g t a with ⟨t2, r2⟩
          rw [hg] at h1; simp only at h1; subst h1
          simp only [mapS, hg]
    | ok b =>
      cases hb : ok a b with
      | false =>
        have h1 := ha.long t1 b hf hb
        have hm : (mapS g t (a :: as)).2 = .error .valueError := by
          rcases hg : g t a with ⟨t2, r2⟩
          rw [hg] at h1; simp only at h1; subst h1
          simp only [mapS, hg]
        refine ⟨?_, fun _ _ _ _ => hm, fun _ _ _ => Or.inr hm⟩
        intro t' w hw ho
        exfalso
        simp only [mapS, hf] at hw
        split at hw
        · simp at hw
        · simp only [Prod.mk.injEq, Except.ok.injEq] at hw
          obtain ⟨_, rfl⟩ := hw
          simp [hb] at ho
      | true =>
        have h1 := ha.same t1 b hf hb
        have ih := mapS_limits h as t1
        rcases hs : mapS f t1 as with ⟨t2, r2⟩
        cases r2 with
        | error e =>
          have h2 := ih.fail t2 e hs
          refine ⟨?_, ?_, ?_⟩ <;> intro t' x hx
          · simp [mapS, hf, hs] at hx
          · simp [mapS, hf, hs] at hx
          · simp only [mapS, hf, hs, Prod.mk.injEq, Except.error.injEq] at hx
            obtain ⟨rfl, rfl⟩ := hx
            rcases h2 with h2 | h2
            · left; simp only [mapS, h1, h2]
            · right
              rcases hg : mapS g t1 as with ⟨t3, r3⟩
              rw [hg] at h2; simp only at h2; subst h2
              simp only [mapS, h1, hg]
        | ok bs =>
          refine ⟨?_, ?_, ?_⟩
          · intro t' x hx ho
            simp only [mapS, hf, hs, Prod.mk.injEq, Except.ok.injEq] at hx
            obtain ⟨rfl, rfl⟩ := hx
            have h2 := ih.same t2 bs hs (by simpa [hb] using ho)
            simp only [mapS, h1, h2]
          · intro t' x hx ho
            simp only [mapS, hf, hs, Prod.mk.injEq, Except.ok.injEq] at hx
            obtain ⟨rfl, rfl⟩ := hx
            have h2 := ih.long t2 bs hs (by
              rw [List.zip_cons_cons, List.all_cons, hb, Bool.true_and] at ho; exact ho)
            rcases hg : mapS g t1 as with ⟨t3, r3⟩
            rw [hg] at h2; simp only at h2; subst h2
            simp only [mapS, h1, hg]
          · intro t' x hx
            simp [mapS, hf, hs] at hx

theorem mapS_length {α β : Type} {f : Refs → α → Refs × Except Exc β} : ∀ (l : List α) t t' ws, mapS f t l = (t', .ok ws) → ws.length = l.length
  | [], t, t', ws, h => by simp only [mapS, Prod.mk.injEq, Except.ok.injEq] at h; rw [← h.2]; rfl
  | a :: as, t, t', ws, h => by
    simp only [mapS] at h
    split at h
    · simp at h
    · split at h
      · simp at h
      · rename_i t1 b _ t2 bs h2
        simp only [Prod.mk.injEq, Except.ok.injEq] at h
        rw [← h.2]
        simp [mapS_length as _ _ _ h2]

/-- the key of an entry is an integer that is too long -/
def longKeyOf (lim : Nat) (k : Val) : Bool := match k.core with | .int i => decide (10 ^ lim ≤ i.natAbs) | _ => false

theorem longKeyD_cons (lim : Nat) (k v : Val) (r : List (Val × Val)) : longKeyD lim ((k, v) :: r) = (longKeyOf lim k || (v.longKey lim || longKeyD lim r)) := by
  simp only [longKeyD, longKeyOf]
  rfl

theorem jkeyLim_eq (lim : Nat) (L : Lib) (k : Val) : jkeyLim lim L k = if longKeyOf lim k then .error .valueError else jkey L k := by
  unfold jkeyLim longKeyOf
  split
  · rename_i i hi
    rw [hi]
    simp only [tooLong, jkey, hi]
    by_cases h : 10 ^ lim ≤ i.natAbs <;> simp only [h, decide_true, decide_false, if_true] <;> rfl
  · rename_i h
    split
    · rename_i i hi; exact absurd hi (h i)
    · simp

theorem jpair_limits (lim : Nat) (L : Lib) {f g : Refs → Val → Refs × Except Exc Wire} {ok : Val → Wire → Bool} (h : ∀ t v, Limits (ok v) (f t v) (g t v)) (t : Refs) (kv : Val × Val) :
    Limits (fun p => !longKeyOf lim kv.1 && ok kv.2 p.2) (jpair L f t kv) (jpairLim lim L g t kv) := by
  cases hl : longKeyOf lim kv.1 with
  | true =>
    have hb : (jpairLim lim L g t kv).2 = .error .valueError := by simp only [jpairLim, jkeyLim_eq, hl, if_true]
    exact ⟨fun _ _ _ ho => by simp at ho, fun _ _ _ _ => hb, fun _ _ _ => Or.inr hb⟩
  | false =>
    have hk : jkeyLim lim L kv.1 = jkey L kv.1 := by rw [jkeyLim_eq, hl]; rfl
    cases hj : jkey L kv.1 with
    | error e =>
      have : jpairLim lim L g t kv = jpair L f t kv := by simp only [jpairLim, jpair, hk, hj]
      rw [this]
      exact Limits.refl (by intro _ _ h; simp [jpair, hj] at h)
    | ok k =>
      have hv := h t kv.2
      rcases hf : f t kv.2 with ⟨t1, r1⟩
      cases r1 with
      | error e =>
        refine ⟨?_, ?_, ?_⟩ <;> intro t' x hx
        · simp [jpair, hj, hf] at hx
        · simp [jpair, hj, hf] at hx
        · simp only [jpair, hj, hf, Prod.mk.injEq, Except.error.injEq] at hx
          obtain ⟨rfl, rfl⟩ := hx
          rcases hv.fail t1 e hf with h2 | h2
          · left; simp only [jpairLim, hk, hj, h2]
          · right
            rcases hg : g t kv.2 with ⟨t3, r3⟩
            rw [hg] at h2; simp only at h2; subst h2
            simp only [jpairLim, hk, hj, hg]
      | ok w =>
        refine ⟨?_, ?_, ?_⟩
        · intro t' x hx ho
          simp only [jpair, hj, hf, Prod.mk.injEq, Except.ok.injEq] at hx
          obtain ⟨rfl, rfl⟩ := hx
          have h2 := hv.same t1 w hf (by simpa using ho)
          simp only [jpairLim, hk, hj, h2]
        · intro t' x hx ho
          simp only [jpair, hj, hf, Prod.mk.injEq, Except.ok.injEq] at hx
          obtain ⟨rfl, rfl⟩ := hx
          have h2 := hv.long t1 w hf (by simpa using ho)
          rcases hg : g t kv.2 with ⟨t3, r3⟩
          rw [hg] at h2; simp only at h2; subst h2
          simp only [jpairLim, hk, hj, hg]
        · intro t' x hx
          simp [jpair, hj, hf] at hx

/-- the outcome of writing `v` is the same with the limit -/
def fineFor (lim : Nat) (v : Val) (w : Wire) : Bool := w.all (shortItem lim) && !v.longKey lim

theorem longKey_core (lim : Nat) : ∀ v : Val, v.longKey lim = v.core.longKey lim
  | .sub _ v => by simp only [Val.longKey, Val.core]; exact longKey_core lim v
  | .none | .bool _ | .int _ | .float _ | .str _ | .bytes _ | .list _ | .tuple _ | .dict _ | .datetime _ | .date _
  | .ndarray _ | .npScalar _ | .dtype _ | .proxy _ | .obj _ _ => by simp only [Val.core]

theorem fine_list (lim : Nat) : ∀ (l : List Val) (ws : List Wire), ws.length = l.length →
    ((l.zip ws).all fun p => fineFor lim p.1 p.2) = (Wire.allL (shortItem lim) ws && !longKeyL lim l)
  | [], [], _ => rfl
  | v :: vs, w :: ws, h => by
    rw [List.zip_cons_cons, List.all_cons, fine_list lim vs ws (by simpa using h)]
    simp only [Wire.allL, longKeyL, fineFor]
    cases w.all (shortItem lim) <;> cases v.longKey lim <;> cases Wire.allL (shortItem lim) ws <;> simp
  | [], _ :: _, h => by simp at h
  | _ :: _, [], h => by simp at h

/-- all keys are texts -/
def KeysText (m : List (Wire × Wire)) : Prop := ∀ p ∈ m, ∃ s, p.1 = Wire.str s

theorem fine_dict (lim : Nat) : ∀ (d : List (Val × Val)) (ws : List (Wire × Wire)), ws.length = d.length → KeysText ws →
    ((d.zip ws).all fun p => !longKeyOf lim p.1.1 && fineFor lim p.1.2 p.2.2) = (Wire.allM (shortItem lim) ws && !longKeyD lim d)
  | [], [], _, _ => rfl
  | (k, v) :: vs, (k', w) :: ws, h, hk => by
    rw [List.zip_cons_cons, List.all_cons, fine_dict lim vs ws (by simpa using h) (fun p hp => hk p (by simp [hp]))]
    obtain ⟨s, hs⟩ := hk (k', w) (by simp)
    simp only at hs
    subst hs
    have h1 : Wire.all (shortItem lim) (.str s) = true := by simp [Wire.all, shortItem]
    rw [longKeyD_cons]
    simp only [Wire.allM, h1, fineFor]
    cases w.all (shortItem lim) <;> cases v.longKey lim <;> cases Wire.allM (shortItem lim) ws <;> cases longKeyOf lim k <;> simp
  | [], _ :: _, h, _ => by simp at h
  | _ :: _, [], h, _ => by simp at h

theorem mapS_keysText {L : Lib} {f : Refs → Val → Refs × Except Exc Wire} : ∀ (d : List (Val × Val)) t t' m, mapS (jpair L f) t d = (t', .ok m) → KeysText m
  | [], t, t', m, h => by simp only [mapS, Prod.mk.injEq, Except.ok.injEq] at h; rw [← h.2]; intro p hp; simp at hp
  | kv :: r, t, t', m, h => by
    simp only [mapS] at h
    split at h
    · simp at h
    · split at h
      · simp at h
      · rename_i t1 b h1 _ t2 bs h2
        simp only [Prod.mk.injEq, Except.ok.injEq] at h
        rw [← h.2]
        intro p hp
        rcases List.mem_cons.1 hp with rfl | hp
        · simp only [jpair] at h1
          split at h1
          · simp at h1
          · split at h1
            · simp at h1
            · simp only [Prod.mk.injEq, Except.ok.injEq] at h1
              exact ⟨_, by rw [← h1.2]⟩
        · exact mapS_keysText r _ _ _ h2 p hp

theorem encodeValue_longKey {L : Lib} {lim : Nat} {v : Val} {d : List (Val × Val)} (hv : ∀ l, v.core ≠ .tuple l) (h : encodeValue L v = .ok d) : longKeyD lim d = false := by
  have hk : ∀ l : List Val, (∀ x ∈ l, x.longKey lim = false) → longKeyL lim l = false := by
    intro l; induction l with
    | nil => intro _; rfl
    | cons a l ih => intro hh; simp only [longKeyL, hh a (by simp), ih (fun x hx => hh x (by simp [hx])), Bool.or_false]
  unfold encodeValue at h
  split at h
  · simp only [Except.ok.injEq] at h
    subst h
    simp only [longKeyD, Val.core, Val.longKey]
    rw [hk _ (by intro x hx; obtain ⟨n, _, rfl⟩ := List.mem_map.1 hx; rfl)]
    rfl
  · simp only [Except.ok.injEq] at h
    subst h
    simp only [Proxy.getstate, longKeyD, Val.core, Val.longKey]
    rw [hk _ (by intro x hx; obtain ⟨n, _, rfl⟩ := List.mem_map.1 hx; rfl)]
    rfl
  · simp only [Except.ok.injEq] at h; subst h; rfl
  · simp only [Except.ok.injEq] at h; subst h; rfl
  · rename_i l hl; exact absurd hl (hv l)
  · simp only [Except.ok.injEq] at h; subst h; rfl
  · split at h
    · split at h
      · simp only [Except.ok.injEq] at h; subst h; rfl
      · cases h
    · split at h
      · simp only [Except.ok.injEq] at h; subst h; rfl
      · cases h
    · split at h
      · rename_i x hx
        have : x.longKey lim = false := by
          unfold NpScalar.toPy at hx
          split at hx <;> first | (simp only [Except.ok.injEq] at hx; subst hx; rfl) | cases hx
        simp only [Except.ok.injEq] at h; subst h
        simp only [longKeyD, Val.core, Val.longKey, this]
        rfl
      · cases h
  · split at h
    · simp only [Except.ok.injEq] at h; subst h; rfl
    · cases h

theorem jencode_longKey {E : SendEnv} {lim : Nat} {t t' : Refs} {v : Val} {d : List (Val × Val)} (hv : ∀ l, v.core ≠ .tuple l) (h : jencode E t v = (t', .ok d)) : longKeyD lim d = false := by
  have hk : ∀ l : List Val, (∀ x ∈ l, x.longKey lim = false) → longKeyL lim l = false := by
    intro l; induction l with
    | nil => intro _; rfl
    | cons a l ih => intro hh; simp only [longKeyL, hh a (by simp), ih (fun x hx => hh x (by simp [hx])), Bool.or_false]
  unfold jencode at h
  split at h
  · simp only [Prod.mk.injEq] at h
    have h := h.2
    split at h
    · simp only [Except.ok.injEq] at h
      subst h
      simp only [longKeyD, Val.core, Val.longKey]
      rw [hk _ (by intro x hx; obtain ⟨n, _, rfl⟩ := List.mem_map.1 hx; rfl)]
      rfl
    · cases h
  · simp only [Prod.mk.injEq, Except.ok.injEq] at h; rw [← h.2]; rfl
  · unfold encode at h
    split at h
    · simp only [Prod.mk.injEq] at h; exact encodeValue_longKey hv h.2
    · split at h
      · simp at h
      · split at h
        · simp only [Prod.mk.injEq] at h
          exact encodeValue_longKey (by intro l; simp [Val.core]) h.2
        · simp at h

/-- `viaMap` -/
theorem viaMap_limits {lim : Nat} {L : Lib} {f g : Refs → Val → Refs × Except Exc Wire} (h : ∀ t v, Limits (fineFor lim v) (f t v) (g t v)) (t : Refs) (d : List (Val × Val)) :
    Limits (fun w => w.all (shortItem lim) && !longKeyD lim d)
      (match mapS (jpair L f) t d with
        | (t', .ok m) => (t', Except.ok (Wire.map m))
        | (t', .error e) => (t', .error e))
      (match mapS (jpairLim lim L g) t d with
        | (t', .ok m) => (t', Except.ok (Wire.map m))
        | (t', .error e) => (t', .error e)) := by
  have hm := mapS_limits (jpair_limits lim L h) d t
  rcases hf : mapS (jpair L f) t d with ⟨t1, r1⟩
  cases r1 with
  | error e =>
    refine ⟨?_, ?_, ?_⟩ <;> intro t' x hx
    · simp at hx
    · simp at hx
    · simp only [Prod.mk.injEq, Except.error.injEq] at hx
      obtain ⟨rfl, rfl⟩ := hx
      rcases hm.fail _ _ hf with h2 | h2
      · left; rw [h2]
      · right
        rcases hg : mapS (jpairLim lim L g) t d with ⟨t3, r3⟩
        rw [hg] at h2; simp only at h2; subst h2
        rfl
  | ok m =>
    have hq := fine_dict lim d m (mapS_length _ _ _ _ hf) (mapS_keysText _ _ _ _ hf)
    have hw : Wire.all (shortItem lim) (.map m) = Wire.allM (shortItem lim) m := by simp [Wire.all, shortItem]
    refine ⟨?_, ?_, ?_⟩
    · intro t' x hx ho
      simp only [Prod.mk.injEq, Except.ok.injEq] at hx
      obtain ⟨rfl, rfl⟩ := hx
      rw [hm.same _ _ hf (by rw [hq, ← hw]; exact ho)]
    · intro t' x hx ho
      simp only [Prod.mk.injEq, Except.ok.injEq] at hx
      obtain ⟨rfl, rfl⟩ := hx
      have h2 := hm.long _ _ hf (by rw [hq, ← hw]; exact ho)
      rcases hg : mapS (jpairLim lim L g) t d with ⟨t3, r3⟩
      rw [hg] at h2; simp only at h2; subst h2
      rfl
    · intro t' x hx
      simp at hx

/-- `viaList` -/
theorem viaList_limits {lim : Nat} {f g : Refs → Val → Refs × Except Exc Wire} (h : ∀ t v, Limits (fineFor lim v) (f t v) (g t v)) (t : Refs) (l : List Val) :
    Limits (fun w => w.all (shortItem lim) && !longKeyL lim l)
      (match mapS f t l with
        | (t', .ok m) => (t', Except.ok (Wire.arr m))
        | (t', .error e) => (t', .error e))
      (match mapS g t l with
        | (t', .ok m) => (t', Except.ok (Wire.arr m))
        | (t', .error e) => (t', .error e)) := by
  have hm := mapS_limits h l t
  rcases hf : mapS f t l with ⟨t1, r1⟩
  cases r1 with
  | error e =>
    refine ⟨?_, ?_, ?_⟩ <;> intro t' x hx
    · simp at hx
    · simp at hx
    · simp only [Prod.mk.injEq, Except.error.injEq] at hx
      obtain ⟨rfl, rfl⟩ := hx
      rcases hm.fail _ _ hf with h2 | h2
      · left; rw [h2]
      · right
        rcases hg : mapS g t l with ⟨t3, r3⟩
        rw [hg] at h2; simp only at h2; subst h2
        rfl
  | ok m =>
    have hq := fine_list lim l m (mapS_length _ _ _ _ hf)
    have hw : Wire.all (shortItem lim) (.arr m) = Wire.allL (shortItem lim) m := by simp [Wire.all, shortItem]
    refine ⟨?_, ?_, ?_⟩
    · intro t' x hx ho
      simp only [Prod.mk.injEq, Except.ok.injEq] at hx
      obtain ⟨rfl, rfl⟩ := hx
      rw [hm.same _ _ hf (by rw [hq, ← hw]; exact ho)]
    · intro t' x hx ho
      simp only [Prod.mk.injEq, Except.ok.injEq] at hx
      obtain ⟨rfl, rfl⟩ := hx
      have h2 := hm.long _ _ hf (by rw [hq, ← hw]; exact ho)
      rcases hg : mapS g t l with ⟨t3, r3⟩
      rw [hg] at h2; simp only at h2; subst h2
      rfl
    · intro t' x hx
      simp at hx

theorem default_limits {lim : Nat} {E : SendEnv} {f g : Refs → Val → Refs × Except Exc Wire} (h : ∀ t v, Limits (fineFor lim v) (f t v) (g t v)) (t : Refs) (v : Val)
    (hv : ∀ l, v.core ≠ .tuple l) :
    Limits (fun w => w.all (shortItem lim))
      (match jencode E t v with
        | (t', .ok d) => match mapS (jpair E.lib f) t' d with
          | (t', .ok m) => (t', Except.ok (Wire.map m))
          | (t', .error e) => (t', .error e)
        | (t', .error e) => (t', .error e))
      (match jencode E t v with
        | (t', .ok d) => match mapS (jpairLim lim E.lib g) t' d with
          | (t', .ok m) => (t', Except.ok (Wire.map m))
          | (t', .error e) => (t', .error e)
        | (t', .error e) => (t', .error e)) := by
  rcases hj : jencode E t v with ⟨t1, r1⟩
  cases r1 with
  | error e => exact Limits.refl (by intro _ _ h; simp at h)
  | ok d =>
    exact (viaMap_limits h t1 d).mono (by intro w; rw [jencode_longKey hv hj]; simp)

theorem jpack_limits (lim : Nat) (E : SendEnv) : ∀ n t v, Limits (fineFor lim v) (jpack E n t v) (jpackLim lim E n t v) := by
  intro n
  induction n with
  | zero => intro t v; exact Limits.refl (by intro _ _ h; simp [jpack] at h)
  | succ n ih =>
    intro t v
    have hd := default_limits (E := E) ih t v
    simp only [jpack, jpackLim]
    have hf : ∀ w, fineFor lim v w = (w.all (shortItem lim) && !v.core.longKey lim) := by intro w; rw [fineFor, longKey_core]
    cases hc : v.core with
    | none => exact Limits.refl (by intro _ _ h; simp only [Prod.mk.injEq, Except.ok.injEq] at h; rw [hf, hc, ← h.2]; rfl)
    | bool b => exact Limits.refl (by intro _ _ h; simp only [Prod.mk.injEq, Except.ok.injEq] at h; rw [hf, hc, ← h.2]; rfl)
    | float b => exact Limits.refl (by intro _ _ h; simp only [Prod.mk.injEq, Except.ok.injEq] at h; rw [hf, hc, ← h.2]; rfl)
    | str b => exact Limits.refl (by intro _ _ h; simp only [Prod.mk.injEq, Except.ok.injEq] at h; rw [hf, hc, ← h.2]; rfl)
    | int i =>
      have hs : fineFor lim v (.int i) = shortItem lim (.int i) := by rw [hf, hc]; simp [Val.longKey, Wire.all]
      simp only [tooLong_short]
      cases hi : shortItem lim (.int i) with
      | true =>
        simp only [Bool.not_true, Bool.false_eq_true, if_false]
        exact Limits.refl (by intro _ _ h; simp only [Prod.mk.injEq, Except.ok.injEq] at h; rw [← h.2, hs, hi])
      | false =>
        simp only [Bool.not_false, if_true]
        refine ⟨?_, fun _ _ _ _ => rfl, fun _ _ _ => Or.inr rfl⟩
        intro t' w h ho
        simp only [Prod.mk.injEq, Except.ok.injEq] at h
        rw [← h.2, hs, hi] at ho; cases ho
    | list l => exact (viaList_limits ih t l).mono (by intro w; rw [hf, hc]; simp [Val.longKey])
    | tuple l => exact (viaList_limits ih t l).mono (by intro w; rw [hf, hc]; simp [Val.longKey])
    | dict l => exact (viaMap_limits ih t l).mono (by intro w; rw [hf, hc]; simp [Val.longKey])
    | npScalar s =>
      refine Limits.mono (ok := fun w => Wire.all (shortItem lim) w) ?_ (by intro w; rw [hf, hc]; simp [Val.longKey])
      have hdd := hd (by intro l; rw [hc]; simp)
      revert hdd
      rcases hj : jencode E t v with ⟨t1, r1⟩
      cases r1
      case' ok d =>
        rcases hm : mapS (jpair E.lib (jpack E n)) t1 d with ⟨t2, r2⟩
        rcases hm' : mapS (jpairLim lim E.lib (jpackLim lim E n)) t1 d with ⟨t3, r3⟩
        cases r2 <;> cases r3
      all_goals
        first | simp only [hm, hm'] | simp only
        intro hdd
        split
        · split
          · refine ⟨fun _ _ e _ => ?_, fun t' w e h' => ?_, fun _ _ e => ?_⟩
            · simp_all
            · simp only [Prod.mk.injEq, Except.ok.injEq] at e
              rw [← e.2] at h'
              simp [Wire.all, shortItem] at h'
            · simp at e
          · rename_i h1 h2 h3 _ _ _ hno; exact (hno _ h1 h2 h3).elim
        · split
          · rename_i hno _ _ _ _ h1 h2 h3; exact (hno _ h1 h2 h3).elim
          · exact hdd
    | bytes _ | datetime _ | date _ | ndarray _ | dtype _ | proxy _ | obj _ _ =>
      exact (hd (by intro l; rw [hc]; simp)).mono (by intro w; rw [hf, hc]; simp [Val.longKey])
    | sub c u => exact (hd (by intro l; rw [hc]; simp)).mono (by intro w; rw [hf, hc]; exact absurd hc (by
        intro hh
        have : ∀ v : Val, ∀ c u, v.core ≠ .sub c u := by
          intro v
          induction v using Val.core.induct with
          | case1 a v ih => intro c u; rw [Val.core]; exact ih c u
          | case2 v h => intro c u h'; cases v <;> simp_all [Val.core]
        exact this v c u hh))

/-! ## Reading -/

/-- reading with the limit against reading without -/
structure ReadLim {β : Type} (short : Bool) (a b : Except Exc β) : Prop where
  same : short = true → b = a
  long : short = false → ∀ v, a = .ok v → b = .error .valueError
  fail : ∀ e, a = .error e → b = .error e ∨ b = .error .valueError

theorem ReadLim.refl {β : Type} (a : Except Exc β) : ReadLim true a a := ⟨fun _ => rfl, fun h => by simp at h, fun _ h => Or.inl h⟩

mutual
theorem junpack_lim (lim : Nat) (R : RecvEnv) : ∀ w, ReadLim (w.all (shortItem lim)) (junpack R w) (junpackLim lim R w)
  | .nil => by simp only [junpack, junpackLim]; exact ReadLim.refl _
  | .bool _ => by simp only [junpack, junpackLim]; exact ReadLim.refl _
  | .float _ => by simp only [junpack, junpackLim]; exact ReadLim.refl _
  | .str _ => by simp only [junpack, junpackLim]; exact ReadLim.refl _
  | .bin _ => by simp only [junpack, junpackLim]; exact ReadLim.refl _
  | .int i => by
    simp only [junpack, junpackLim, tooLong_short, Wire.all]
    cases shortItem lim (.int i)
    · exact ⟨fun h => by simp at h, fun _ _ _ => rfl, fun _ h => by simp at h⟩
    · exact ReadLim.refl _
  | .arr l => by
    have hl := junpackL_lim lim R l
    have hw : Wire.all (shortItem lim) (.arr l) = Wire.allL (shortItem lim) l := by simp [Wire.all, shortItem]
    rw [hw]
    simp only [junpack, junpackLim]
    refine ⟨fun h => by rw [hl.same h]; cases junpackL R l <;> rfl, fun h v hv => ?_, fun e he => ?_⟩
    · split at hv
      · rename_i vs hvs; rw [hl.long h vs hvs]
      · cases hv
    · split at he
      · cases he
      · rename_i e' he'
        cases he
        rcases hl.fail _ he' with h | h <;> rw [h]
        · exact Or.inl rfl
        · exact Or.inr rfl
  | .map m => by
    have hl := junpackM_lim lim R m
    have hw : Wire.all (shortItem lim) (.map m) = Wire.allM (shortItem lim) m := by simp [Wire.all, shortItem]
    rw [hw]
    simp only [junpack, junpackLim]
    refine ⟨fun h => ?_, fun h v hv => ?_, fun e he => ?_⟩
    · rw [hl.same h]; cases junpackM R m <;> rfl
    · split at hv
      · rename_i vs hvs; rw [hl.long h vs hvs]
      · cases hv
    · split at he
      · rename_i vs hvs
        cases hs : Wire.allM (shortItem lim) m with
        | false => right; rw [hl.long hs vs hvs]
        | true =>
          left
          rw [hl.same hs, hvs]; exact he
      · rename_i e' he'
        cases he
        rcases hl.fail _ he' with h | h <;> rw [h]
        · exact Or.inl rfl
        · exact Or.inr rfl
theorem junpackL_lim (lim : Nat) (R : RecvEnv) : ∀ l, ReadLim (Wire.allL (shortItem lim) l) (junpackL R l) (junpackLimL lim R l)
  | [] => by simp only [junpackL, junpackLimL]; exact ReadLim.refl _
  | w :: ws => by
    have h1 := junpack_lim lim R w
    have h2 := junpackL_lim lim R ws
    simp only [junpackL, junpackLimL, Wire.allL]
    cases ha : w.all (shortItem lim) with
    | false =>
      cases hv : junpack R w with
      | ok v => rw [h1.long ha v hv]; exact ⟨fun h => by simp at h, fun _ _ _ => rfl, fun _ _ => Or.inr rfl⟩
      | error e =>
        rcases h1.fail e hv with h | h <;> rw [h]
        · exact ⟨fun h => by simp at h, fun _ _ h => by simp at h, fun _ h => Or.inl h⟩
        · exact ⟨fun h => by simp at h, fun _ _ h => by simp at h, fun _ h => Or.inr rfl⟩
    | true =>
      rw [h1.same ha, Bool.true_and]
      cases hv : junpack R w with
      | error e => exact ⟨fun _ => rfl, fun _ _ h => by simp at h, fun _ h => Or.inl h⟩
      | ok v =>
        simp only
        cases hb : Wire.allL (shortItem lim) ws with
        | true => rw [h2.same hb]; exact ReadLim.refl _
        | false =>
          cases hl : junpackL R ws with
          | ok vs => rw [h2.long hb vs hl]; exact ⟨fun h => by simp at h, fun _ _ _ => rfl, fun _ _ => Or.inr rfl⟩
          | error e =>
            rcases h2.fail e hl with h | h <;> rw [h]
            · exact ⟨fun h => by simp at h, fun _ _ h => by simp at h, fun _ h => Or.inl h⟩
            · exact ⟨fun h => by simp at h, fun _ _ h => by simp at h, fun _ h => Or.inr rfl⟩
theorem junpackM_lim (lim : Nat) (R : RecvEnv) : ∀ l, ReadLim (Wire.allM (shortItem lim) l) (junpackM R l) (junpackLimM lim R l)
  | [] => by simp only [junpackM, junpackLimM]; exact ReadLim.refl _
  | (.str k, w) :: ws => by
    have h1 := junpack_lim lim R w
    have h2 := junpackM_lim lim R ws
    have hk : Wire.all (shortItem lim) (.str k) = true := by simp [Wire.all, shortItem]
    simp only [junpackM, junpackLimM, Wire.allM, hk, Bool.true_and]
    cases ha : w.all (shortItem lim) with
    | false =>
      cases hv : junpack R w with
      | ok v => rw [h1.long ha v hv]; exact ⟨fun h => by simp at h, fun _ _ _ => rfl, fun _ _ => Or.inr rfl⟩
      | error e =>
        rcases h1.fail e hv with h | h <;> rw [h]
        · exact ⟨fun h => by simp at h, fun _ _ h => by simp at h, fun _ h => Or.inl h⟩
        · exact ⟨fun h => by simp at h, fun _ _ h => by simp at h, fun _ h => Or.inr rfl⟩
    | true =>
      rw [h1.same ha, Bool.true_and]
      cases hv : junpack R w with
      | error e => exact ⟨fun _ => rfl, fun _ _ h => by simp at h, fun _ h => Or.inl h⟩
      | ok v =>
        simp only
        cases hb : Wire.allM (shortItem lim) ws with
        | true => rw [h2.same hb]; exact ReadLim.refl _
        | false =>
          cases hl : junpackM R ws with
          | ok vs => rw [h2.long hb vs hl]; exact ⟨fun h => by simp at h, fun _ _ _ => rfl, fun _ _ => Or.inr rfl⟩
          | error e =>
            rcases h2.fail e hl with h | h <;> rw [h]
            · exact ⟨fun h => by simp at h, fun _ _ h => by simp at h, fun _ h => Or.inl h⟩
            · exact ⟨fun h => by simp at h, fun _ _ h => by simp at h, fun _ h => Or.inr rfl⟩
  | (.nil, _) :: _ => by simp only [junpackM, junpackLimM]; exact ⟨fun _ => rfl, fun _ _ h => by simp at h, fun _ h => Or.inl h⟩
  | (.bool _, _) :: _ => by simp only [junpackM, junpackLimM]; exact ⟨fun _ => rfl, fun _ _ h => by simp at h, fun _ h => Or.inl h⟩
  | (.int _, _) :: _ => by simp only [junpackM, junpackLimM]; exact ⟨fun _ => rfl, fun _ _ h => by simp at h, fun _ h => Or.inl h⟩
  | (.float _, _) :: _ => by simp only [junpackM, junpackLimM]; exact ⟨fun _ => rfl, fun _ _ h => by simp at h, fun _ h => Or.inl h⟩
  | (.bin _, _) :: _ => by simp only [junpackM, junpackLimM]; exact ⟨fun _ => rfl, fun _ _ h => by simp at h, fun _ h => Or.inl h⟩
  | (.arr _, _) :: _ => by simp only [junpackM, junpackLimM]; exact ⟨fun _ => rfl, fun _ _ h => by simp at h, fun _ h => Or.inl h⟩
  | (.map _, _) :: _ => by simp only [junpackM, junpackLimM]; exact ⟨fun _ => rfl, fun _ _ h => by simp at h, fun _ h => Or.inl h⟩
end

theorem shortItem_le {a b : Nat} (h : a ≤ b) (w : Wire) (hw : shortItem a w = true) : shortItem b w = true := by
  cases w <;> simp_all only [shortItem, decide_eq_true_eq]
  exact Nat.lt_of_lt_of_le hw (Nat.pow_le_pow_right (by decide) h)

mutual
theorem shortItem_mono {a b : Nat} (h : a ≤ b) : ∀ w : Wire, w.all (shortItem a) = true → w.all (shortItem b) = true
  | .nil, _ => rfl
  | .bool _, _ => rfl
  | .float _, _ => rfl
  | .str _, _ => rfl
  | .bin _, _ => rfl
  | .int i, hw => by simp only [Wire.all] at hw ⊢; exact shortItem_le h _ hw
  | .arr l, hw => by
    simp only [Wire.all, shortItem, Bool.true_and] at hw ⊢
    exact shortItem_monoL h l hw
  | .map m, hw => by
    simp only [Wire.all, shortItem, Bool.true_and] at hw ⊢
    exact shortItem_monoM h m hw
theorem shortItem_monoL {a b : Nat} (h : a ≤ b) : ∀ l : List Wire, Wire.allL (shortItem a) l = true → Wire.allL (shortItem b) l = true
  | [], _ => rfl
  | w :: ws, hw => by
    simp only [Wire.allL, Bool.and_eq_true] at hw ⊢
    exact ⟨shortItem_mono h w hw.1, shortItem_monoL h ws hw.2⟩
theorem shortItem_monoM {a b : Nat} (h : a ≤ b) : ∀ l : List (Wire × Wire), Wire.allM (shortItem a) l = true → Wire.allM (shortItem b) l = true
  | [], _ => rfl
  | (k, w) :: ws, hw => by
    simp only [Wire.allM, Bool.and_eq_true] at hw ⊢
    exact ⟨shortItem_mono h k hw.1, shortItem_mono h w hw.2.1, shortItem_monoM h ws hw.2.2⟩
end

end Verif
