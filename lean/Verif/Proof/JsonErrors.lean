import Verif.Proof.JsonGrammar
/-!
# How the reader of JSON refuses texts
-/
namespace Verif

/-- The opening brackets of a text. -/
def jsOpens (s : List Char) : Nat := s.countP fun c => c = '[' || c = '{'

/-- A run of more than 4300 digits. -/
def LongDigits (s : List Char) : Prop := ∃ a d b, s = a ++ (d ++ b) ∧ 4300 < d.length ∧ ∀ c ∈ d, JsDigit c

theorem jsOpens_append (s t : List Char) : jsOpens (s ++ t) = jsOpens s + jsOpens t := List.countP_append

theorem LongDigits.suffix {r : List Char} (h : LongDigits r) (t : List Char) : LongDigits (t ++ r) := by
  obtain ⟨a, d, b, rfl, h⟩ := h
  exact ⟨t ++ a, d, b, by simp, h⟩

/-- The exceptions of a reader of values with at most `d` levels. -/
def Errs (d : Nat) (s : List Char) (e : Exc) : Prop := e = .other "JSONDecodeError" ∨ (e = .valueError ∧ LongDigits s) ∨ (e = .other "RecursionError" ∧ d < jsOpens s)

theorem Errs.suffix {d : Nat} {r : List Char} {e : Exc} (h : Errs d r e) (t : List Char) : Errs d (t ++ r) e := by
  rcases h with h | ⟨h1, h2⟩ | ⟨h1, h2⟩
  · exact .inl h
  · exact .inr (.inl ⟨h1, h2.suffix t⟩)
  · exact .inr (.inr ⟨h1, by rw [jsOpens_append]; omega⟩)

theorem Errs.cons {d : Nat} {r : List Char} {e : Exc} (h : Errs d r e) {c : Char} (hc : c = '[' ∨ c = '{') : Errs (d + 1) (c :: r) e := by
  rcases h with h | ⟨h1, h2⟩ | ⟨h1, h2⟩
  · exact .inl h
  · exact .inr (.inl ⟨h1, h2.suffix [c]⟩)
  · refine .inr (.inr ⟨h1, ?_⟩)
    have e : jsOpens (c :: r) = jsOpens r + 1 := by
      unfold jsOpens
      rw [List.countP_cons, if_pos (by simpa using hc)]
    omega

theorem Errs.blank {d : Nat} {r : List Char} {e : Exc} (h : Errs d (jsWs r) e) : Errs d r e := by
  obtain ⟨a, -, h2⟩ := jsWs_sound r
  rw [h2]
  exact h.suffix a

theorem JsWhole.digits {w : List Char} (h : JsWhole w) : ∀ c ∈ w, JsDigit c := by
  rcases h with rfl | ⟨c, d, rfl, -, hc, hd⟩
  · intro c hc
    rw [List.mem_singleton.1 hc]
    exact ⟨by decide, by decide⟩
  · intro x hx
    rcases List.mem_cons.1 hx with rfl | hx
    · exact hc
    · exact hd x hx

theorem jsNumber_errs {F : FmtLib} {s : List Char} {e : Exc} (h : jsNumber F s = .error e) (d : Nat) : Errs d s e := by
  obtain ⟨h1, -⟩ := jsMinus_sound s
  unfold jsNumber jsUnsigned at h
  split at h
  · cases h; exact .inl rfl
  · next x y hx =>
    obtain ⟨h2, h3⟩ := jsWhole_sound hx
    split at h
    · split at h
      · next hl =>
        cases h
        refine .inr (.inl ⟨rfl, ?_⟩)
        rw [h2] at h1
        rw [h1]
        exact ⟨_, x, y, rfl, hl, h3.digits⟩
      · cases h
    · cases h

theorem jsStr_errs {s : List Char} {e : Exc} (h : jsStr s = .error e) : e = .other "JSONDecodeError" := by
  unfold jsStr at h
  split at h
  · cases h
  · cases h; rfl

theorem jsElems_errs {f : List Char → Except Exc (Wire × List Char)} {V : List Char → Wire → Prop} (hf : JsReads f V) {d : Nat} (he : ∀ s e, f s = .error e → Errs d s e) :
    ∀ (n : Nat) (s : List Char) (e : Exc), jsElems f n s = .error e → Errs d s e
  | 0, _, _, h => by cases h; exact .inl rfl
  | n + 1, s, e, h => by
    rw [jsElems] at h
    split at h
    · next hq => cases h; exact he _ _ hq
    · next w q hq =>
      obtain ⟨t, rfl, -⟩ := hf.sound _ _ _ hq
      apply Errs.suffix
      apply Errs.blank
      split at h
      · cases h
      · next r' hr =>
        rw [hr]
        split at h
        · cases h
        · next hl => cases h; exact (Errs.blank (jsElems_errs hf he n _ _ hl)).suffix [',']
      · cases h; exact .inl rfl

theorem jsMembers_errs {f : List Char → Except Exc (Wire × List Char)} {V : List Char → Wire → Prop} (hf : JsReads f V) {d : Nat} (he : ∀ s e, f s = .error e → Errs d s e) :
    ∀ (n : Nat) (s : List Char) (e : Exc), jsMembers f n s = .error e → Errs d s e
  | 0, _, _, h => by simp only [jsMembers, Except.error.injEq] at h; subst h; exact .inl rfl
  | n + 1, s, e, h => by
    unfold jsMembers at h
    split at h
    · next n' s' =>
      split at h
      · next hk => cases h; exact .inl (jsStr_errs hk)
      · next k q hk =>
        obtain ⟨kt, ks, rfl, -, -⟩ := jsStr_sound hk
        rw [show '"' :: (kt ++ '"' :: q) = ('"' :: kt ++ ['"']) ++ q by simp]
        apply Errs.suffix
        apply Errs.blank
        split at h
        · next q2 hq2 =>
          rw [hq2]
          refine Errs.suffix ?_ [':']
          apply Errs.blank
          split at h
          · next hw => cases h; exact he _ _ hw
          · next w q3 hw =>
            obtain ⟨t, e4, -⟩ := hf.sound _ _ _ hw
            rw [e4]
            apply Errs.suffix
            apply Errs.blank
            split at h
            · cases h
            · next r' hr =>
              rw [hr]
              split at h
              · cases h
              · next hl => cases h; exact (Errs.blank (jsMembers_errs hf he _ _ _ hl)).suffix [',']
            · cases h; exact .inl rfl
        · cases h; exact .inl rfl
    · cases h; exact .inl rfl

theorem jsItem_errs {F : FmtLib} {arr obj : List Char → Except Exc (Wire × List Char)} {s : List Char} {e : Exc} (h : jsItem F arr obj s = .error e) (d : Nat) :
    Errs d s e ∨ (∃ s', s = '[' :: s' ∧ arr s' = .error e) ∨ ∃ s', s = '{' :: s' ∧ obj s' = .error e := by
  cases s with
  | nil => cases h; exact .inl (.inl rfl)
  | cons c s =>
    rw [jsItem] at h
    split at h
    · split at h
      · cases h
      · next hx => cases h; exact .inl (.inl (jsStr_errs hx))
    split at h
    · next hc => subst hc; exact .inr (.inr ⟨s, rfl, h⟩)
    split at h
    · next hc => subst hc; exact .inr (.inl ⟨s, rfl, h⟩)
    refine .inl ?_
    repeat' split at h
    all_goals first | cases h | exact jsNumber_errs h d

theorem jsRead_errs (F : FmtLib) : ∀ (d : Nat) (s : List Char) (e : Exc), jsRead F d s = .error e → Errs d s e
  | 0, s, e, h => by
    have h' := jsItem_errs h 0
    clear h
    rcases h' with h | ⟨s', rfl, h⟩ | ⟨s', rfl, h⟩
    · exact h
    · cases h
      refine .inr (.inr ⟨rfl, ?_⟩)
      unfold jsOpens
      rw [List.countP_cons, if_pos (by simp)]
      omega
    · cases h
      refine .inr (.inr ⟨rfl, ?_⟩)
      unfold jsOpens
      rw [List.countP_cons, if_pos (by simp)]
      omega
  | d + 1, s, e, h => by
    have ih := jsRead_errs F d
    have hR := jsRead_reads F d
    have h' := jsItem_errs h (d + 1)
    clear h
    rcases h' with h | ⟨s', rfl, h⟩ | ⟨s', rfl, h⟩
    · exact h
    · refine Errs.cons ?_ (.inl rfl)
      apply Errs.blank
      unfold jsArr at h
      split at h
      · cases h
      · split at h
        · cases h
        · next hl => cases h; exact jsElems_errs hR ih _ _ _ hl
    · refine Errs.cons ?_ (.inr rfl)
      apply Errs.blank
      unfold jsObj at h
      split at h
      · cases h
      · split at h
        · cases h
        · next hl => cases h; exact jsMembers_errs hR ih _ _ _ hl

theorem jsLoad_errs (F : FmtLib) (b : Bytes) (e : Exc) (h : jsLoad F b = .error e) :
    (utf8Text b = none ∧ e = .unicodeError) ∨ ∃ s, utf8Text b = some s ∧ Errs 1000 s.toList e := by
  unfold jsLoad at h
  split at h
  · next hs => cases h; exact .inl ⟨hs, rfl⟩
  · next s hs =>
    refine .inr ⟨s, hs, ?_⟩
    split at h
    · cases h; exact .inl rfl
    · apply Errs.blank
      split at h
      · split at h
        · cases h
        · cases h; exact .inl rfl
      · next hr => cases h; exact jsRead_errs F _ _ _ hr

/-! ## Deep texts -/

theorem jsItems_nesting {n : Nat} {fl : List Char → Nat} (hV : ∀ t w, JsValue fl n t w → w.nesting ≤ n) {u : List Char} {l : List Wire} (h : JsItems (JsValue fl n) u l) : Wire.nestingL l ≤ n := by
  induction h with
  | last ht ha => simp [Wire.nestingL, hV _ _ ht]
  | more ht ha hb hu ih => have := hV _ _ ht; simp only [Wire.nestingL]; omega

theorem jsEntries_nesting {n : Nat} {fl : List Char → Nat} (hV : ∀ t w, JsValue fl n t w → w.nesting ≤ n) {u : List Char} {l : List (Wire × Wire)} (h : JsEntries (JsValue fl n) u l) :
    Wire.nestingM l ≤ n := by
  induction h with
  | @last t a kv ht ha =>
    obtain ⟨k, w⟩ := kv
    obtain ⟨_, _, _, _, _, -, -, -, hv, rfl, -⟩ := ht
    have := hV _ _ hv
    simp [Wire.nestingM, Wire.nesting]; omega
  | @more t a b u kv l ht ha hb hu ih =>
    obtain ⟨k, w⟩ := kv
    obtain ⟨_, _, _, _, _, -, -, -, hv, rfl, -⟩ := ht
    have : w.nesting ≤ n := hV _ _ hv
    simp only [Wire.nestingM, Wire.nesting]; omega

theorem jsScalar_nesting {fl : List Char → Nat} {t : List Char} {w : Wire} (h : JsScalar fl t w) : w.nesting = 0 := by
  cases h with
  | number h => cases h <;> rfl
  | _ => rfl

/-- no value is nested more deeply than its text -/
theorem jsValue_nesting {fl : List Char → Nat} : ∀ (n : Nat) (t : List Char) (w : Wire), JsValue fl n t w → w.nesting ≤ n
  | 0, t, w, h => by rw [jsScalar_nesting h]; omega
  | n + 1, t, w, h => by
    have ih := jsValue_nesting (fl := fl) n
    rcases h with h | ⟨b, hb, rfl, rfl⟩ | ⟨b, u, l, hb, hu, rfl, rfl⟩ | ⟨b, hb, rfl, rfl⟩ | ⟨b, u, l, hb, hu, rfl, rfl⟩
    · rw [jsScalar_nesting h]; omega
    · simp [Wire.nesting, Wire.nestingL]
    · have := jsItems_nesting ih hu; simp only [Wire.nesting]; omega
    · simp [Wire.nesting, Wire.nestingM]
    · have := jsEntries_nesting ih hu; simp only [Wire.nesting]; omega

/-- What a reader with `d` levels does with a text of `n` levels. -/
def Deep (F : FmtLib) (d n : Nat) : Prop :=
  ∀ t w, JsValue F.floatOf n t w → (w.nesting ≤ d → JsValue F.floatOf d t w) ∧ (d < w.nesting → ∀ r, JsStop r → jsRead F d (t ++ r) = .error (.other "RecursionError"))

theorem jsItems_deep {F : FmtLib} {d n : Nat} (hD : Deep F d n) {u : List Char} {l : List Wire} (h : JsItems (JsValue F.floatOf n) u l) :
    (Wire.nestingL l ≤ d → JsItems (JsValue F.floatOf d) u l) ∧
      (d < Wire.nestingL l → ∀ (m : Nat) (r : List Char), l.length ≤ m → jsElems (jsRead F d) m (u ++ ']' :: r) = .error (.other "RecursionError")) := by
  have hR := jsRead_reads F d
  induction h with
  | @last t a w ht ha =>
    obtain ⟨h1, h2⟩ := hD _ _ ht
    refine ⟨fun h => .last (h1 (by simpa [Wire.nestingL] using h)) ha, ?_⟩
    intro h m r hm
    cases m with
    | zero => simp at hm
    | succ m =>
      rw [List.append_assoc, jsElems, h2 (by simpa [Wire.nestingL] using h) _ (jsBlank_stop ha (JsStop.cons (by decide) _))]
  | @more t a b u w l ht ha hb hu ih =>
    obtain ⟨h1, h2⟩ := hD _ _ ht
    simp only [Wire.nestingL]
    refine ⟨fun h => .more (h1 (by omega)) ha hb (ih.1 (by omega)), ?_⟩
    intro h m r hm
    cases m with
    | zero => simp at hm
    | succ m =>
      simp only [List.append_assoc, List.cons_append]
      by_cases hw : d < w.nesting
      · rw [jsElems, h2 hw _ (jsBlank_stop ha (JsStop.cons (by decide) _))]
      · rw [jsElems, hR.complete _ _ _ (h1 (by omega)) (jsBlank_stop ha (JsStop.cons (by decide) _))]
        simp only [jsWs_blank ha, jsWs_comma, jsWs_starts hb (JsItems.starts (jsRead_reads F n) hu).1]
        rw [ih.2 (by omega) m r (by simpa using hm)]

theorem jsEntries_deep {F : FmtLib} {d n : Nat} (hD : Deep F d n) {u : List Char} {l : List (Wire × Wire)} (h : JsEntries (JsValue F.floatOf n) u l) :
    (Wire.nestingM l ≤ d → JsEntries (JsValue F.floatOf d) u l) ∧
      (d < Wire.nestingM l → ∀ (m : Nat) (r : List Char), l.length ≤ m → jsMembers (jsRead F d) m (u ++ '}' :: r) = .error (.other "RecursionError")) := by
  have hR := jsRead_reads F d
  induction h with
  | @last t c kv ht hc =>
    obtain ⟨k, w⟩ := kv
    obtain ⟨kt, ks, a, b, v, hkt, ha, hb, hv, rfl, rfl⟩ := ht
    replace hv : JsValue F.floatOf n v w := hv
    obtain ⟨h1, h2⟩ := hD _ _ hv
    simp only [Wire.nestingM, Wire.nesting]
    refine ⟨fun h => .last ⟨kt, ks, a, b, v, hkt, ha, hb, h1 (by omega), rfl, rfl⟩ hc, ?_⟩
    intro h m r hm
    cases m with
    | zero => simp at hm
    | succ m =>
      simp only [List.append_assoc, List.cons_append]
      rw [jsMembers, jsStr_complete hkt]
      simp only [jsWs_blank ha, jsWs_colon, jsWs_starts hb ((jsRead_reads F n).starts _ _ hv)]
      rw [h2 (by omega) _ (jsBlank_stop hc (JsStop.cons (by decide) _))]
  | @more t c g u kv l ht hc hg hu ih =>
    obtain ⟨k, w⟩ := kv
    obtain ⟨x, hx⟩ := hu.starts.1
    obtain ⟨kt, ks, a, b, v, hkt, ha, hb, hv, rfl, rfl⟩ := ht
    replace hv : JsValue F.floatOf n v w := hv
    obtain ⟨h1, h2⟩ := hD _ _ hv
    simp only [Wire.nestingM, Wire.nesting]
    refine ⟨fun h => .more ⟨kt, ks, a, b, v, hkt, ha, hb, h1 (by omega), rfl, rfl⟩ hc hg (ih.1 (by omega)), ?_⟩
    intro h m r hm
    cases m with
    | zero => simp at hm
    | succ m =>
      simp only [List.append_assoc, List.cons_append]
      rw [jsMembers, jsStr_complete hkt]
      simp only [jsWs_blank ha, jsWs_colon, jsWs_starts hb ((jsRead_reads F n).starts _ _ hv)]
      by_cases hw : d < w.nesting
      · rw [h2 hw _ (jsBlank_stop hc (JsStop.cons (by decide) _))]
      · rw [hR.complete _ _ _ (h1 (by omega)) (jsBlank_stop hc (JsStop.cons (by decide) _))]
        simp only [jsWs_blank hc, jsWs_comma, jsWs_starts hg (hx ▸ quote_starts : Starts u)]
        rw [ih.2 (by omega) m r (by simpa using hm)]

theorem jsScalar_value {fl : List Char → Nat} {t : List Char} {w : Wire} (h : JsScalar fl t w) : ∀ d, JsValue fl d t w
  | 0 => h
  | _ + 1 => .inl h

theorem jsDeep (F : FmtLib) : ∀ n d, Deep F d n
  | 0, d => fun t w h => ⟨fun _ => jsScalar_value h d, fun hd => by rw [jsScalar_nesting h] at hd; omega⟩
  | n + 1, 0 => by
    intro t w h
    rcases h with h | ⟨b, hb, rfl, rfl⟩ | ⟨b, u, l, hb, hu, rfl, rfl⟩ | ⟨b, hb, rfl, rfl⟩ | ⟨b, u, l, hb, hu, rfl, rfl⟩
    · exact ⟨fun _ => h, fun hd => by rw [jsScalar_nesting h] at hd; omega⟩
    all_goals exact ⟨fun h => by simp [Wire.nesting] at h, fun _ r _ => rfl⟩
  | n + 1, d + 1 => by
    have hD := jsDeep F n d
    intro t w h
    rcases h with h | ⟨b, hb, rfl, rfl⟩ | ⟨b, u, l, hb, hu, rfl, rfl⟩ | ⟨b, hb, rfl, rfl⟩ | ⟨b, u, l, hb, hu, rfl, rfl⟩
    · exact ⟨fun _ => .inl h, fun hd => by rw [jsScalar_nesting h] at hd; omega⟩
    · exact ⟨fun _ => .inr (.inl ⟨b, hb, rfl, rfl⟩), fun hd => by simp [Wire.nesting, Wire.nestingL] at hd⟩
    · obtain ⟨h1, h2⟩ := jsItems_deep hD hu
      simp only [Wire.nesting]
      refine ⟨fun h => .inr (.inr (.inl ⟨b, u, l, hb, h1 (by omega), rfl, rfl⟩)), ?_⟩
      intro h r hr
      obtain ⟨hs, hl⟩ := JsItems.starts (jsRead_reads F n) hu
      rw [jsRead, List.cons_append, jsItem_arr', List.append_assoc, List.append_assoc, jsArr, jsWs_starts hb hs]
      rw [List.singleton_append]
      split
      · next r' e =>
        obtain ⟨c, x, rfl, hc⟩ := hs
        cases e
        exact absurd rfl hc.2.2.2.2
      · rw [h2 (by omega) _ _ (by simp only [List.length_append]; omega)]
    · exact ⟨fun _ => .inr (.inr (.inr (.inl ⟨b, hb, rfl, rfl⟩))), fun hd => by simp [Wire.nesting, Wire.nestingM] at hd⟩
    · obtain ⟨h1, h2⟩ := jsEntries_deep hD hu
      simp only [Wire.nesting]
      refine ⟨fun h => .inr (.inr (.inr (.inr ⟨b, u, l, hb, h1 (by omega), rfl, rfl⟩))), ?_⟩
      intro h r hr
      obtain ⟨⟨x, hx⟩, hl⟩ := hu.starts
      have hs : Starts u := hx ▸ quote_starts
      rw [jsRead, List.cons_append, jsItem_obj', List.append_assoc, List.append_assoc, jsObj, jsWs_starts hb hs]
      rw [List.singleton_append]
      split
      · next r' e => rw [hx] at e; cases e
      · rw [h2 (by omega) _ _ (by simp only [List.length_append]; omega)]

end Verif
