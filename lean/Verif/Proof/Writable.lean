import Verif.Spec.Formats
/-!
# Proofs: what the serializers make of values is of the kinds the formats have
-/
namespace Verif

theorem mapS_all {α β : Type} {f : Refs → α → Refs × Except Exc β} {Q : β → Prop} (hf : ∀ t a t' b, f t a = (t', .ok b) → Q b) :
    ∀ {l : List α} {t t' : Refs} {bs : List β}, mapS f t l = (t', .ok bs) → ∀ b ∈ bs, Q b := by
  intro l
  induction l with
  | nil => intro t t' bs h b hb; simp only [mapS, Prod.mk.injEq, Except.ok.injEq] at h; rw [← h.2] at hb; cases hb
  | cons a l ih =>
    intro t t' bs h b hb
    rw [mapS] at h
    split at h
    · simp at h
    · next t1 b1 h1 =>
      split at h
      · simp at h
      · next t2 bs2 h2 =>
        simp only [Prod.mk.injEq, Except.ok.injEq] at h
        rw [← h.2] at hb
        rcases List.mem_cons.1 hb with rfl | hb
        · exact hf _ _ _ _ h1
        · exact ih h2 b hb

theorem pairS_all {β : Type} {f : Refs → Val → Refs × Except Exc β} {Q : β → Prop} (hf : ∀ t a t' b, f t a = (t', .ok b) → Q b) {t t' kv b}
    (h : pairS f t kv = (t', .ok b)) : Q b.1 ∧ Q b.2 := by
  rw [pairS] at h
  split at h
  · simp at h
  · next h1 =>
    split at h
    · simp at h
    · next h2 =>
      simp only [Prod.mk.injEq, Except.ok.injEq] at h
      rw [← h.2]
      exact ⟨hf _ _ _ _ h1, hf _ _ _ _ h2⟩

theorem allL_of {P : Wire → Bool} : ∀ {l : List Wire}, (∀ w ∈ l, w.all P = true) → Wire.allL P l = true
  | [], _ => rfl
  | w :: ws, h => by
    rw [Wire.allL, h w (by simp), allL_of fun x hx => h x (by simp [hx])]; rfl

theorem allM_of {P : Wire → Bool} : ∀ {l : List (Wire × Wire)}, (∀ w ∈ l, w.1.all P = true ∧ w.2.all P = true) → Wire.allM P l = true
  | [], _ => rfl
  | (k, w) :: ws, h => by
    have := h (k, w) (by simp)
    rw [Wire.allM, this.1, this.2, allM_of fun x hx => h x (by simp [hx])]; rfl

theorem nestingL_of {n : Nat} : ∀ {l : List Wire}, (∀ w ∈ l, w.nesting ≤ n) → Wire.nestingL l ≤ n
  | [], _ => Nat.zero_le _
  | w :: ws, h => by
    rw [Wire.nestingL]
    exact Nat.max_le.2 ⟨h w (by simp), nestingL_of fun x hx => h x (by simp [hx])⟩

theorem nestingM_of {n : Nat} : ∀ {l : List (Wire × Wire)}, (∀ w ∈ l, w.1.nesting ≤ n ∧ w.2.nesting ≤ n) → Wire.nestingM l ≤ n
  | [], _ => Nat.zero_le _
  | (k, w) :: ws, h => by
    rw [Wire.nestingM]
    exact Nat.max_le.2 ⟨(h (k, w) (by simp)).1, Nat.max_le.2 ⟨(h (k, w) (by simp)).2, nestingM_of fun x hx => h x (by simp [hx])⟩⟩

theorem pack_has (E : SendEnv) : ∀ (n : Nat) (t : Refs) (v : Val) (t' : Refs) (w : Wire), pack E n t v = (t', .ok w) →
    w.all (Ser.hasItem .msgpack) = true ∧ w.nesting ≤ n
  | 0, t, v, t', w, h => by simp [pack] at h
  | n + 1, t, v, t', w, h => by
    have ih := pack_has E n
    have hmap : ∀ {t d t' m}, mapS (pairS (pack E n)) t d = (t', .ok m) → (Wire.map m).all (Ser.hasItem .msgpack) = true ∧ (Wire.map m).nesting ≤ n + 1 := by
      intro t d t' m hm
      have := mapS_all (Q := fun b : Wire × Wire => (b.1.all (Ser.hasItem .msgpack) = true ∧ b.1.nesting ≤ n) ∧ (b.2.all (Ser.hasItem .msgpack) = true ∧ b.2.nesting ≤ n))
        (fun _ _ _ _ h => pairS_all (Q := fun b : Wire => b.all (Ser.hasItem .msgpack) = true ∧ b.nesting ≤ n) ih h) hm
      refine ⟨?_, ?_⟩
      · rw [Wire.all, allM_of fun w hw => ⟨(this w hw).1.1, (this w hw).2.1⟩]; rfl
      · rw [Wire.nesting]
        have := nestingM_of (n := n) (l := m) fun w hw => ⟨(this w hw).1.2, (this w hw).2.2⟩
        omega
    have hvia : ∀ {t d t' w}, (match mapS (pairS (pack E n)) t d with
        | (t', .ok m) => (t', Except.ok (Wire.map m))
        | (t', .error e) => (t', .error e)) = (t', Except.ok w) → w.all (Ser.hasItem .msgpack) = true ∧ w.nesting ≤ n + 1 := by
      intro t d t' w h
      split at h
      · next hm =>
        simp only [Prod.mk.injEq, Except.ok.injEq] at h
        rw [← h.2]
        exact hmap hm
      · simp at h
    have hdef : ∀ {t v t' w}, (match encode E t v with
        | (t', .ok d) => (match mapS (pairS (pack E n)) t' d with
          | (t', .ok m) => (t', Except.ok (Wire.map m))
          | (t', .error e) => (t', .error e))
        | (t', .error e) => (t', .error e)) = (t', Except.ok w) → w.all (Ser.hasItem .msgpack) = true ∧ w.nesting ≤ n + 1 := by
      intro t v t' w h
      split at h
      · exact hvia h
      · simp at h
    cases v with
    | int i =>
      simp only [pack] at h
      split at h
      · next hi =>
        simp only [Prod.mk.injEq, Except.ok.injEq] at h
        rw [← h.2]
        refine ⟨?_, Nat.zero_le _⟩
        simp only [Wire.all, Ser.hasItem, Bool.and_eq_true, decide_eq_true_eq]
        exact hi
      · exact hdef h
    | list l =>
      simp only [pack] at h
      split at h
      · next hm =>
        simp only [Prod.mk.injEq, Except.ok.injEq] at h
        rw [← h.2]
        have := mapS_all ih hm
        refine ⟨?_, ?_⟩
        · rw [Wire.all, allL_of fun w hw => (this w hw).1]; rfl
        · rw [Wire.nesting]
          have := nestingL_of fun w hw => (this w hw).2
          omega
      · simp at h
    | dict d => exact hvia h
    | none => simp only [pack, Prod.mk.injEq, Except.ok.injEq] at h; rw [← h.2]; exact ⟨rfl, Nat.zero_le _⟩
    | bool _ => simp only [pack, Prod.mk.injEq, Except.ok.injEq] at h; rw [← h.2]; exact ⟨rfl, Nat.zero_le _⟩
    | float _ => simp only [pack, Prod.mk.injEq, Except.ok.injEq] at h; rw [← h.2]; exact ⟨rfl, Nat.zero_le _⟩
    | str _ => simp only [pack, Prod.mk.injEq, Except.ok.injEq] at h; rw [← h.2]; exact ⟨rfl, Nat.zero_le _⟩
    | bytes _ => simp only [pack, Prod.mk.injEq, Except.ok.injEq] at h; rw [← h.2]; exact ⟨rfl, Nat.zero_le _⟩
    | _ => exact hdef h

theorem jpair_all {L : Lib} {f : Refs → Val → Refs × Except Exc Wire} {Q : Wire → Prop} (hf : ∀ t a t' b, f t a = (t', .ok b) → Q b) {t t' kv b}
    (h : jpair L f t kv = (t', .ok b)) : (∃ s, b.1 = .str s) ∧ Q b.2 := by
  rw [jpair] at h
  split at h
  · simp at h
  · split at h
    · simp at h
    · next h2 =>
      simp only [Prod.mk.injEq, Except.ok.injEq] at h
      rw [← h.2]
      exact ⟨⟨_, rfl⟩, hf _ _ _ _ h2⟩

theorem jpack_has (E : SendEnv) : ∀ (n : Nat) (t : Refs) (v : Val) (t' : Refs) (w : Wire), jpack E n t v = (t', .ok w) →
    w.all (Ser.hasItem .json) = true ∧ w.nesting ≤ n
  | 0, t, v, t', w, h => by simp [jpack] at h
  | n + 1, t, v, t', w, h => by
    have ih := jpack_has E n
    have hmap : ∀ {t d t' m}, mapS (jpair E.lib (jpack E n)) t d = (t', .ok m) → (Wire.map m).all (Ser.hasItem .json) = true ∧ (Wire.map m).nesting ≤ n + 1 := by
      intro t d t' m hm
      have := mapS_all (Q := fun b : Wire × Wire => (∃ s, b.1 = .str s) ∧ (b.2.all (Ser.hasItem .json) = true ∧ b.2.nesting ≤ n))
        (fun _ _ _ _ h => jpair_all (Q := fun b : Wire => b.all (Ser.hasItem .json) = true ∧ b.nesting ≤ n) ih h) hm
      refine ⟨?_, ?_⟩
      · rw [Wire.all, allM_of fun w hw => ⟨by obtain ⟨s, hs⟩ := (this w hw).1; rw [hs]; rfl, (this w hw).2.1⟩]
        simp only [Ser.hasItem, Bool.and_true, List.all_eq_true]
        intro w hw
        obtain ⟨s, hs⟩ := (this w hw).1
        rw [hs]
      · rw [Wire.nesting]
        have := nestingM_of (n := n) (l := m) fun w hw => ⟨by obtain ⟨s, hs⟩ := (this w hw).1; rw [hs]; exact Nat.zero_le _, (this w hw).2.2⟩
        omega
    have hvia : ∀ {t d t' w}, (match mapS (jpair E.lib (jpack E n)) t d with
        | (t', .ok m) => (t', Except.ok (Wire.map m))
        | (t', .error e) => (t', .error e)) = (t', Except.ok w) → w.all (Ser.hasItem .json) = true ∧ w.nesting ≤ n + 1 := by
      intro t d t' w h
      split at h
      · next hm =>
        simp only [Prod.mk.injEq, Except.ok.injEq] at h
        rw [← h.2]
        exact hmap hm
      · simp at h
    have hdef : ∀ {t v t' w}, (match jencode E t v with
        | (t', .ok d) => (match mapS (jpair E.lib (jpack E n)) t' d with
          | (t', .ok m) => (t', Except.ok (Wire.map m))
          | (t', .error e) => (t', .error e))
        | (t', .error e) => (t', .error e)) = (t', Except.ok w) → w.all (Ser.hasItem .json) = true ∧ w.nesting ≤ n + 1 := by
      intro t v t' w h
      split at h
      · exact hvia h
      · simp at h
    have hlist : ∀ {t l t' w}, (match mapS (jpack E n) t l with
        | (t', .ok ws) => (t', Except.ok (Wire.arr ws))
        | (t', .error e) => (t', .error e)) = (t', Except.ok w) → w.all (Ser.hasItem .json) = true ∧ w.nesting ≤ n + 1 := by
      intro t l t' w h
      split at h
      · next hm =>
        simp only [Prod.mk.injEq, Except.ok.injEq] at h
        rw [← h.2]
        have := mapS_all ih hm
        refine ⟨?_, ?_⟩
        · rw [Wire.all, allL_of fun w hw => (this w hw).1]; rfl
        · rw [Wire.nesting]
          have := nestingL_of fun w hw => (this w hw).2
          omega
      · simp at h
    simp only [jpack] at h
    split at h
    · simp only [Prod.mk.injEq, Except.ok.injEq] at h; rw [← h.2]; exact ⟨rfl, Nat.zero_le _⟩
    · simp only [Prod.mk.injEq, Except.ok.injEq] at h; rw [← h.2]; exact ⟨rfl, Nat.zero_le _⟩
    · simp only [Prod.mk.injEq, Except.ok.injEq] at h; rw [← h.2]; exact ⟨rfl, Nat.zero_le _⟩
    · simp only [Prod.mk.injEq, Except.ok.injEq] at h; rw [← h.2]; exact ⟨rfl, Nat.zero_le _⟩
    · simp only [Prod.mk.injEq, Except.ok.injEq] at h; rw [← h.2]; exact ⟨rfl, Nat.zero_le _⟩
    · exact hlist h
    · exact hlist h
    · exact hvia h
    · split at h
      · simp only [Prod.mk.injEq, Except.ok.injEq] at h; rw [← h.2]; exact ⟨rfl, Nat.zero_le _⟩
      · exact hdef h
    · exact hdef h

/-- What a serializer makes of a value is of the kinds its format has, and not nested too deeply to be read. -/
theorem dumps_writable {ser : Ser} {E : SendEnv} {t : Refs} {v : Val} {w : Wire} (h : (ser.dumps E t v).2 = .ok w) (hs : ser.Small w) : ser.Writable w := by
  refine ⟨hs, ?_⟩
  cases ser with
  | msgpack =>
    have := pack_has E msgpackDepth t v (msgpackDumps E t v).1 w (by rw [← h]; rfl)
    exact ⟨this.1, Nat.le_trans this.2 (by decide)⟩
  | json =>
    have := jpack_has E jsonDepth t v (jsonDumps E t v).1 w (by rw [← h]; rfl)
    exact ⟨this.1, this.2⟩

end Verif
