import Verif.Spec.CommandLine
/-!
# The argparse of the bootstrap script: which words are options, values and names
-/
namespace Verif

theorem splitEq_append (o v : List Char) (ho : '=' ∉ o) : splitEq (o ++ '=' :: v) = (o, some v) := by
  have h1 : (o ++ '=' :: v).takeWhile (· ≠ '=') = o := by
    induction o with
    | nil => simp
    | cons c o ih =>
      simp only [List.mem_cons, not_or] at ho
      have : decide (c ≠ '=') = true := by simpa using fun h => ho.1 h.symm
      simp only [List.cons_append, List.takeWhile_cons, this, if_true]
      rw [ih ho.2]
  have h2 : (o ++ '=' :: v).dropWhile (· ≠ '=') = '=' :: v := by
    induction o with
    | nil => simp
    | cons c o ih =>
      simp only [List.mem_cons, not_or] at ho
      have : decide (c ≠ '=') = true := by simpa using fun h => ho.1 h.symm
      simp only [List.cons_append, List.dropWhile_cons, this, if_true]
      exact ih ho.2 (by simp_all)
  rw [splitEq, h1, h2]

theorem splitEq_plain (o : List Char) (ho : '=' ∉ o) : splitEq o = (o, none) := by
  have h : o.takeWhile (· ≠ '=') = o ∧ o.dropWhile (· ≠ '=') = [] := by
    induction o with
    | nil => simp
    | cons c o ih =>
      simp only [List.mem_cons, not_or] at ho
      have : decide (c ≠ '=') = true := by simpa using fun h => ho.1 h.symm
      simp only [List.takeWhile_cons, List.dropWhile_cons, this, if_true]
      rw [(ih ho.2).1]
      exact ⟨rfl, (ih ho.2).2⟩
  rw [splitEq, h.1, h.2]


theorem dropWhile_eqs (a : List Char) : a.dropWhile (· ≠ '=') = [] ∨ ∃ v, a.dropWhile (· ≠ '=') = '=' :: v := by
  induction a with
  | nil => simp
  | cons x a ih =>
    by_cases hx : x = '='
    · subst hx; simp
    · simpa only [List.dropWhile_cons, decide_eq_true (show x ≠ '=' from hx), if_true] using ih

theorem splitEq_inv (a : List Char) {t : List Char} {m : Option (List Char)} (h : splitEq a = (t, m)) :
    a = t ++ (m.map ('=' :: ·)).getD [] := by
  simp only [splitEq, Prod.mk.injEq] at h
  obtain ⟨rfl, rfl⟩ := h
  have := List.takeWhile_append_dropWhile (p := fun c => decide (c ≠ '=')) (l := a)
  rcases dropWhile_eqs a with hd | ⟨v, hd⟩
  · rw [hd] at this ⊢; simpa using this.symm
  · rw [hd] at this ⊢; simpa using this.symm

theorem filter_unique {α : Type} {p : α → Bool} {x : α} : ∀ {l : List α}, l.Nodup → x ∈ l → p x = true → (∀ y ∈ l, p y = true → y = x) →
    l.filter p = [x]
  | [], _, h, _, _ => by cases h
  | y :: l, hn, hm, hp, hu => by
    have hn' := List.nodup_cons.1 hn
    by_cases hy : p y = true
    · have hyx := hu y (by simp) hy
      subst hyx
      rw [List.filter_cons_of_pos hp]
      have : l.filter p = [] := by
        rw [List.filter_eq_nil_iff]
        intro z hz hpz
        have := hu z (by simp [hz]) hpz
        subst this
        exact hn'.1 hz
      rw [this]
    · rw [List.filter_cons_of_neg hy]
      rcases List.mem_cons.1 hm with rfl | hm
      · exact absurd hp hy
      · exact filter_unique hn'.2 hm hp fun z hz => hu z (by simp [hz])

/-! ## The table -/

theorem optWords_eq : optStrings.map (·.1) = optWords := by decide +kernel
theorem optStrings_nodup : optStrings.Nodup := by decide +kernel
theorem optStrings_text (o : BootOpt) : (o.text, some o) ∈ optStrings := by cases o <;> decide +kernel
theorem optStrings_some : ∀ p ∈ optStrings, ∀ o, p.2 = some o → p.1 = o.text := by
  have : ∀ p ∈ optStrings, p.2 = none ∨ ∃ o ∈ [BootOpt.listenAddr, .daemon, .qt, .verbose, .logaddr, .loglevel, .bootstrapAddr, .childNamePrefix],
      p.2 = some o ∧ p.1 = o.text := by decide +kernel
  intro p hp o ho
  rcases this p hp with h | ⟨o', -, h, ht⟩
  · rw [h] at ho; cases ho
  · rw [h] at ho; cases ho; exact ht
theorem optStrings_key : ∀ p ∈ optStrings, ∀ q ∈ optStrings, p.1 = q.1 → p = q := by decide +kernel
theorem optStrings_lookup : ∀ p ∈ optStrings, optStrings.lookup p.1 = some p.2 := by decide +kernel
theorem optWords_form : ∀ s ∈ optWords, s = ['-', 'h'] ∨ (['-', '-'] <+: s ∧ 2 < s.length ∧ '=' ∉ s) := by decide +kernel
theorem optText_mem (o : BootOpt) : o.text ∈ optWords := by cases o <;> decide +kernel
theorem optText_noEq (o : BootOpt) : '=' ∉ o.text := by cases o <;> decide +kernel
theorem optText_dashes (o : BootOpt) : ∃ r, o.text = '-' :: '-' :: r ∧ r ≠ [] := by
  cases o <;> exact ⟨_, rfl, by decide⟩
theorem means_text (o : BootOpt) : Means o.text o := by cases o <;> decide +kernel

theorem lookup_mem {t : List Char} {o : Option BootOpt} : ∀ {l : List (List Char × Option BootOpt)}, l.lookup t = some o → (t, o) ∈ l
  | [], h => by cases h
  | (a, b) :: l, h => by
    rw [List.lookup_cons] at h
    split at h
    · rename_i he
      have : t = a := by simpa using he
      cases h; subst this; simp
    · exact List.mem_cons_of_mem _ (lookup_mem h)

theorem lookup_word {t : List Char} {o : Option BootOpt} (h : optStrings.lookup t = some o) : t ∈ optWords := by
  rw [← optWords_eq]
  exact List.mem_map.2 ⟨_, lookup_mem h, rfl⟩

theorem lookup_none {t : List Char} (h : t ∉ optWords) : optStrings.lookup t = none := by
  cases hl : optStrings.lookup t with
  | none => rfl
  | some o => exact absurd (lookup_word hl) h

/-! ## Options -/

theorem means_prefix {t o} (h : Means t o) : t <+: o.text := (h _ (optText_mem o)).2 rfl

theorem means_noEq {t o} (h : Means t o) : '=' ∉ t := fun hc => optText_noEq o ((means_prefix h).subset hc)

theorem means_form {t o} (h : Means t o) : ∃ c r, t = '-' :: '-' :: c :: r := by
  obtain ⟨u, hu⟩ := means_prefix h
  obtain ⟨x, hx, -⟩ := optText_dashes o
  have hh := fun hp => (h "--help".toList (by decide +kernel)).1 hp
  have hno : "--help".toList ≠ o.text := by cases o <;> decide +kernel
  rw [hx] at hu
  match t with
  | [] => exact absurd (hh (by simp)) hno
  | [a] => simp only [List.cons_append, List.cons.injEq] at hu; exact absurd (hh (by rw [hu.1]; decide +kernel)) hno
  | [a, b] => simp only [List.cons_append, List.cons.injEq] at hu; exact absurd (hh (by rw [hu.1, hu.2.1]; decide +kernel)) hno
  | a :: b :: c :: r => simp only [List.cons_append, List.cons.injEq] at hu; exact ⟨c, r, by rw [hu.1, hu.2.1]⟩

theorem means_lookup {t o o'} (h : Means t o) (hl : optStrings.lookup t = some o') : o' = some o := by
  have ht := (h t (lookup_word hl)).1 (List.prefix_refl t)
  have := optStrings_key _ (lookup_mem hl) _ (optStrings_text o) ht
  simpa using congrArg Prod.snd this

theorem means_filter {t o} (h : Means t o) : (optStrings.filter fun p => t.isPrefixOf p.1) = [(o.text, some o)] := by
  refine filter_unique optStrings_nodup (optStrings_text o) (List.isPrefixOf_iff_prefix.2 (means_prefix h)) fun y hy hp => ?_
  have := (h y.1 (by rw [← optWords_eq]; exact List.mem_map.2 ⟨y, hy, rfl⟩)).1 (List.isPrefixOf_iff_prefix.1 hp)
  exact optStrings_key _ hy _ (optStrings_text o) this

theorem filter_means {t : List Char} {p : List Char × Option BootOpt} {o : BootOpt} (h : (optStrings.filter fun p => t.isPrefixOf p.1) = [p]) (ho : p.2 = some o) :
    Means t o := by
  have hp : p ∈ optStrings.filter fun p => t.isPrefixOf p.1 := by rw [h]; simp
  have hp' := List.mem_filter.1 hp
  have hpt := optStrings_some p hp'.1 o ho
  intro s hs
  rw [← optWords_eq] at hs
  obtain ⟨q, hq, rfl⟩ := List.mem_map.1 hs
  constructor
  · intro hpre
    have : q ∈ optStrings.filter fun p => t.isPrefixOf p.1 := List.mem_filter.2 ⟨hq, List.isPrefixOf_iff_prefix.2 hpre⟩
    rw [h] at this
    simp only [List.mem_cons, List.not_mem_nil, or_false] at this
    rw [this, hpt]
  · intro he
    have := optStrings_key q hq p hp'.1 (by rw [he, hpt])
    rw [this]
    exact List.isPrefixOf_iff_prefix.1 hp'.2

theorem argTok_bare {t o} (h : Means t o) : argTok t = .opt o none := by
  obtain ⟨c, r, rfl⟩ := means_form h
  have hs := splitEq_plain _ (means_noEq h)
  unfold argTok
  rw [if_neg (by simp)]
  have hx : optExact ('-' :: '-' :: c :: r) = some (.opt o none) ∨ optExact ('-' :: '-' :: c :: r) = none := by
    unfold optExact
    cases hl : optStrings.lookup ('-' :: '-' :: c :: r) with
    | some o' => rw [means_lookup h hl]; exact .inl rfl
    | none => right; simp only [hs]; rw [if_neg (by simp)]
  rcases hx with hx | hx
  · rw [hx]
  · rw [hx]
    simp only [optMatches, List.tail_cons, List.head?_cons, if_true, hs, means_filter h, List.map_cons, List.map_nil, optTok]

theorem argTok_eq {t o} (h : Means t o) (v : List Char) : argTok (t ++ '=' :: v) = .opt o (some v) := by
  have hs := splitEq_append t v (means_noEq h)
  have hl0 : optStrings.lookup (t ++ '=' :: v) = none := by
    refine lookup_none fun hm => ?_
    rcases optWords_form _ hm with hf | ⟨-, -, hf⟩
    · have : '=' ∈ ['-', 'h'] := hf ▸ (by simp : '=' ∈ t ++ '=' :: v)
      simp at this
    · exact hf (by simp)
  obtain ⟨c, r, hc⟩ := means_form h
  unfold argTok
  rw [if_neg (by rw [hc]; simp)]
  have hx : optExact (t ++ '=' :: v) = some (.opt o (some v)) ∨ optExact (t ++ '=' :: v) = none := by
    unfold optExact
    simp only [hl0, hs]
    rw [if_neg (by rw [hc]; simp)]
    cases hl : optStrings.lookup t with
    | some o' => rw [means_lookup h hl]; exact .inl rfl
    | none => exact .inr rfl
  rcases hx with hx | hx
  · rw [hx]
  · rw [hx]
    have : (t ++ '=' :: v).tail.head? = some '-' := by rw [hc]; rfl
    simp only [optMatches, this, if_true, hs, means_filter h, List.map_cons, List.map_nil, optTok]

theorem optTok_opt {o' : Option BootOpt} {v} {o x} (h : optTok o' v = .opt o x) : o' = some o ∧ v = x := by
  cases o' with
  | none => cases h
  | some o' => simp only [optTok, ArgTok.opt.injEq] at h; exact ⟨by rw [h.1], h.2⟩

theorem splitEq_noEq (a : List Char) : '=' ∉ (splitEq a).1 := by
  intro h
  have : ∀ (l : List Char), ∀ c ∈ l.takeWhile (fun c => decide (c ≠ '=')), c ≠ '=' := by
    intro l
    induction l with
    | nil => simp
    | cons x l ih =>
      intro c hc
      rw [List.takeWhile_cons] at hc
      split at hc
      · rename_i hx
        rcases List.mem_cons.1 hc with rfl | hc
        · simpa using hx
        · exact ih c hc
      · cases hc
  exact this a _ h rfl

theorem optMatches_single {a : List Char} (hh : a.head? = some '-') (hl : a.length ≠ 1) (hd : a.tail.head? ≠ some '-') {o v} (hm : (o, v) ∈ optMatches a) :
    o = none ∧ ['-', 'h'] <+: a := by
  unfold optMatches at hm
  rw [if_neg hd] at hm
  obtain ⟨p, hp, he⟩ := List.mem_filterMap.1 hm
  have hw : p.1 ∈ optWords := by rw [← optWords_eq]; exact List.mem_map.2 ⟨p, hp, rfl⟩
  obtain ⟨x, y, r, rfl⟩ : ∃ x y r, a = x :: y :: r := by
    match a, hh, hl with
    | x :: y :: r, _, _ => exact ⟨x, y, r, rfl⟩
    | [x], _, hl => simp at hl
  simp only [List.head?_cons, Option.some.injEq] at hh
  subst hh
  simp only [List.tail_cons, List.head?_cons, Option.some.injEq, ne_eq] at hd
  have hph : p.1 = ['-', 'h'] ∧ ['-', 'h'] <+: '-' :: y :: r := by
    split at he
    · rename_i h1
      simp only [List.take_succ_cons, List.take_zero] at h1
      rcases optWords_form _ hw with hf | ⟨-, hf, -⟩
      · refine ⟨hf, ?_⟩
        rw [hf] at h1
        simp only [List.cons.injEq, and_true, true_and] at h1
        subst h1
        exact ⟨r, rfl⟩
      · rw [h1] at hf; simp at hf
    · split at he
      · rename_i h2
        have h2 := List.isPrefixOf_iff_prefix.1 h2
        rcases optWords_form _ hw with hf | ⟨⟨z, hz⟩, -, -⟩
        · refine ⟨hf, ?_⟩
          rw [hf] at h2
          obtain ⟨u, hu⟩ := h2
          simp only [List.cons_append, List.cons.injEq, true_and, List.append_eq_nil_iff] at hu
          rw [hu.1]
          exact ⟨r, rfl⟩
        · exfalso
          rw [← hz] at h2
          obtain ⟨u, hu⟩ := h2
          simp only [List.cons_append, List.cons.injEq, true_and] at hu
          exact hd hu.1
      · cases he
  refine ⟨?_, hph.2⟩
  have hnone : p = (['-', 'h'], none) := optStrings_key p hp _ (by decide +kernel) hph.1
  rw [hnone] at he
  split at he
  · simpa using (congrArg (Option.map Prod.fst) he).symm
  · split at he
    · simpa using (congrArg (Option.map Prod.fst) he).symm
    · cases he

/-- Which words are options. -/
theorem argTok_opt {a : List Char} {o : BootOpt} {x : Option (List Char)} (h : argTok a = .opt o x) :
    ∃ t, Means t o ∧ a = t ++ (x.map ('=' :: ·)).getD [] := by
  unfold argTok at h
  split at h
  · cases h
  · next hh =>
    have hh : a.head? = some '-' := by simpa using hh
    cases hx : optExact a with
    | some t =>
      rw [hx] at h
      simp only at h
      subst h
      unfold optExact at hx
      split at hx
      · next o' hl =>
        simp only [Option.some.injEq] at hx
        obtain ⟨rfl, rfl⟩ := optTok_opt hx
        have := optStrings_some _ (lookup_mem hl) o rfl
        exact ⟨a, by rw [show a = o.text from this]; exact means_text o, by simp⟩
      · split at hx
        · cases hx
        · split at hx
          · next v hv =>
            cases hl : optStrings.lookup (splitEq a).1 with
            | none => rw [hl] at hx; cases hx
            | some o' =>
              rw [hl] at hx
              simp only [Option.map_some, Option.some.injEq] at hx
              obtain ⟨rfl, rfl⟩ := optTok_opt hx
              have := optStrings_some _ (lookup_mem hl) o rfl
              refine ⟨(splitEq a).1, by rw [show (splitEq a).1 = o.text from this]; exact means_text o, ?_⟩
              rw [← hv]
              exact splitEq_inv a rfl
          · cases hx
    | none =>
      rw [hx] at h
      simp only at h
      have hl : a.length ≠ 1 := by
        intro hl
        unfold optExact at hx
        split at hx
        · cases hx
        · rw [if_pos hl] at hx; cases hx
      split at h
      · split at h <;> cases h
      · next o' v hm =>
        obtain ⟨rfl, rfl⟩ := optTok_opt h
        by_cases hd : a.tail.head? = some '-'
        · unfold optMatches at hm
          rw [if_pos hd] at hm
          obtain ⟨p, hp, he⟩ := List.map_eq_singleton_iff.1 hm
          simp only [Prod.mk.injEq] at he
          refine ⟨(splitEq a).1, filter_means hp he.1, ?_⟩
          rw [← he.2]
          exact splitEq_inv a rfl
        · have := (optMatches_single hh hl hd (o := some o) (v := v) (by rw [hm]; simp)).1
          cases this
      · cases h

/-! ## Values -/

theorem newline_digit : isUniDigit '\n' = false := by decide +kernel
theorem point_digit : isUniDigit '.' = false := by decide +kernel

theorem trim_newline {x e : List Char} (he : e = [] ∨ e = ['\n']) (hx : x.getLast? ≠ some '\n') :
    (if (x ++ e).getLast? = some '\n' then (x ++ e).dropLast else x ++ e) = x := by
  rcases he with rfl | rfl
  · rw [List.append_nil, if_neg hx]
  · rw [if_pos (by simp), List.dropLast_concat]

theorem digits_last {x : List Char} (h : ∀ c ∈ x, isUniDigit c = true) : x.getLast? ≠ some '\n' := by
  intro hl
  have := h _ (List.mem_of_getLast? hl)
  rw [newline_digit] at this
  cases this

theorem dropWhile_digits {i f : List Char} (h : ∀ c ∈ i, isUniDigit c = true) : (i ++ '.' :: f).dropWhile isUniDigit = '.' :: f := by
  induction i with
  | nil => simp [point_digit]
  | cons c i ih =>
    rw [List.cons_append, List.dropWhile_cons, if_pos (h c (by simp))]
    exact ih fun c hc => h c (by simp [hc])

theorem negNumber_iff (a : List Char) : negNumber a = true ↔ Negative a := by
  constructor
  · intro h
    unfold negNumber at h
    split at h
    · next r =>
      obtain ⟨x, e, hr, he, hx⟩ : ∃ x e, r = x ++ e ∧ (e = [] ∨ e = ['\n']) ∧ (if r.getLast? = some '\n' then r.dropLast else r) = x := by
        by_cases hl : r.getLast? = some '\n'
        · refine ⟨r.dropLast, ['\n'], ?_, .inr rfl, by rw [if_pos hl]⟩
          obtain ⟨y, hy⟩ := List.getLast?_eq_some_iff.1 hl
          rw [hy, List.dropLast_concat]
        · exact ⟨r, [], by simp, .inl rfl, by rw [if_neg hl]⟩
      simp only [hx, Bool.or_eq_true, Bool.and_eq_true, Bool.not_eq_true', List.isEmpty_eq_false_iff, List.all_eq_true] at h
      rcases h with ⟨h1, h2⟩ | h
      · exact ⟨x, [], e, he, by simpa using h2, .inl ⟨by rw [hr]; rfl, h1⟩⟩
      · split at h
        · next f hf =>
          simp only [Bool.and_eq_true, Bool.not_eq_true', List.isEmpty_eq_false_iff, List.all_eq_true] at h
          refine ⟨x.takeWhile isUniDigit, f, e, he, ?_, .inr ⟨?_, h.1⟩⟩
          · intro c hc
            rcases List.mem_append.1 hc with hc | hc
            · have : ∀ (l : List Char), ∀ c ∈ l.takeWhile isUniDigit, isUniDigit c = true := by
                intro l
                induction l with
                | nil => simp
                | cons x l ih =>
                  intro c hc
                  rw [List.takeWhile_cons] at hc
                  split at hc
                  · rename_i hx
                    rcases List.mem_cons.1 hc with rfl | hc
                    · exact hx
                    · exact ih c hc
                  · cases hc
              exact this x c hc
            · exact h.2 c hc
          · rw [hr, List.cons_append, List.cons_append, ← hf, List.takeWhile_append_dropWhile]
        · cases h
    · cases h
  · rintro ⟨i, f, e, he, hd, ⟨rfl, hi⟩ | ⟨rfl, hf⟩⟩
    · have hi' : ∀ c ∈ i, isUniDigit c = true := fun c hc => hd c (by simp [hc])
      rw [List.cons_append]
      simp only [negNumber, trim_newline he (digits_last hi'), Bool.or_eq_true, Bool.and_eq_true, Bool.not_eq_true', List.isEmpty_eq_false_iff, List.all_eq_true]
      exact .inl ⟨hi, hi'⟩
    · have hi' : ∀ c ∈ i, isUniDigit c = true := fun c hc => hd c (by simp [hc])
      have hf' : ∀ c ∈ f, isUniDigit c = true := fun c hc => hd c (by simp [hc])
      have hl : (i ++ '.' :: f).getLast? ≠ some '\n' := by
        rw [List.getLast?_append, List.getLast?_cons_of_ne_nil hf]
        cases hg : f.getLast? with
        | none => exact absurd (List.getLast?_eq_none_iff.1 hg) hf
        | some c => intro hc; exact digits_last hf' (by rw [hg]; simpa using hc)
      rw [List.cons_append, List.cons_append]
      simp only [negNumber, trim_newline he hl, dropWhile_digits hi', Bool.or_eq_true, Bool.and_eq_true, Bool.not_eq_true', List.isEmpty_eq_false_iff, List.all_eq_true]
      exact .inr ⟨hf, hf'⟩

theorem optTok_value {o v s} : optTok o v ≠ .value s := by cases o <;> simp [optTok]

theorem exact_value {a s} (hh : a.head? = some '-') (h : optExact a = some (.value s)) : s = a ∧ a = ['-'] := by
  unfold optExact at h
  split at h
  · simp only [Option.some.injEq] at h; exact absurd h optTok_value
  · split at h
    · next hl =>
      simp only [Option.some.injEq, ArgTok.value.injEq] at h
      match a, hh, hl with
      | [x], hh, _ =>
        simp only [List.head?_cons, Option.some.injEq] at hh
        subst hh
        exact ⟨h.symm, rfl⟩
    · split at h
      · cases hl : optStrings.lookup (splitEq a).1 with
        | none => rw [hl] at h; cases h
        | some o => rw [hl] at h; simp only [Option.map_some, Option.some.injEq] at h; exact absurd h optTok_value
      · cases h

theorem exact_length {a} (h : optExact a = none) : a.length ≠ 1 := by
  intro hl
  unfold optExact at h
  split at h
  · cases h
  · rw [if_pos hl] at h; cases h

theorem dash_length {a : List Char} (hh : a.head? = some '-') (hl : a.length ≠ 1) : ∃ y r, a = '-' :: y :: r := by
  match a, hh, hl with
  | x :: y :: r, hh, _ => simp only [List.head?_cons, Option.some.injEq] at hh; exact ⟨y, r, by rw [hh]⟩
  | [x], _, hl => simp at hl

theorem splitEq_prefix (a : List Char) : (splitEq a).1 <+: a := by
  have := splitEq_inv a (t := (splitEq a).1) (m := (splitEq a).2) rfl
  exact ⟨_, this.symm⟩

theorem noMatch {a : List Char} (hh : a.head? = some '-') (hl : a.length ≠ 1) :
    optMatches a = [] ↔ ¬ ['-', 'h'] <+: a ∧ ¬ (['-', '-'] <+: a ∧ ∃ s ∈ optWords, a.takeWhile (· ≠ '=') <+: s) := by
  obtain ⟨y, r, rfl⟩ := dash_length hh hl
  by_cases hd : y = '-'
  · subst hd
    have h1 : ¬ ['-', 'h'] <+: '-' :: '-' :: r := by rintro ⟨u, hu⟩; simp at hu
    have h2 : ['-', '-'] <+: '-' :: '-' :: r := ⟨r, rfl⟩
    simp only [h1, h2, not_false_eq_true, true_and, optMatches, List.tail_cons, List.head?_cons, if_true, List.map_eq_nil_iff, List.filter_eq_nil_iff]
    constructor
    · rintro hf ⟨s, hs, hp⟩
      rw [← optWords_eq] at hs
      obtain ⟨q, hq, rfl⟩ := List.mem_map.1 hs
      exact hf q hq (List.isPrefixOf_iff_prefix.2 hp)
    · intro hf q hq hp
      exact hf ⟨q.1, by rw [← optWords_eq]; exact List.mem_map.2 ⟨q, hq, rfl⟩, List.isPrefixOf_iff_prefix.1 hp⟩
  · have h2 : ¬ ['-', '-'] <+: '-' :: y :: r := by rintro ⟨u, hu⟩; simp only [List.cons_append, List.cons.injEq, true_and] at hu; exact hd hu.1.symm
    simp only [h2, false_and, not_false_eq_true, and_true]
    constructor
    · intro hm hp
      obtain ⟨u, hu⟩ := hp
      simp only [List.cons_append, List.nil_append, List.cons.injEq, true_and] at hu
      obtain ⟨rfl, rfl⟩ := hu
      have : (none, some u) ∈ optMatches ('-' :: 'h' :: u) := by
        unfold optMatches
        rw [if_neg (by simp)]
        exact List.mem_filterMap.2 ⟨(['-', 'h'], none), by decide +kernel, by simp⟩
      rw [hm] at this
      cases this
    · intro hp
      cases hm : optMatches ('-' :: y :: r) with
      | nil => rfl
      | cons p l => exact absurd (optMatches_single (o := p.1) (v := p.2) hh hl (by simpa using hd) (by rw [hm]; simp)).2 hp

/-- Which words are values. -/
theorem argTok_value {a s : List Char} : argTok a = .value s ↔ s = a ∧ ArgWord a := by
  unfold argTok
  split
  · next hh => exact ⟨fun h => by cases h; exact ⟨rfl, .inl hh⟩, fun h => by rw [h.1]⟩
  · next hh =>
    have hh : a.head? = some '-' := by simpa using hh
    cases hx : optExact a with
    | some t =>
      constructor
      · intro h
        simp only at h
        subst h
        obtain ⟨rfl, h⟩ := exact_value hh hx
        exact ⟨rfl, .inr (.inl h)⟩
      · rintro ⟨rfl, h⟩
        by_cases hl : s.length = 1
        · have : s = ['-'] := by
            match s, hh, hl with
            | [x], hh, _ => simp only [List.head?_cons, Option.some.injEq] at hh; rw [hh]
          subst this
          have : optExact ['-'] = some (.value ['-']) := by decide +kernel
          rw [this] at hx
          cases hx
          rfl
        · rcases h with h | h | ⟨-, h1, h2⟩
          · exact absurd hh h
          · subst h; simp at hl
          · exfalso
            have key : ∀ w, w ∈ optWords → w <+: s → w = (splitEq s).1 → False := by
              intro w hw hp he
              rcases optWords_form w hw with hf | ⟨hf, -, -⟩
              · exact h1 (hf ▸ hp)
              · refine h2 ⟨hf.trans hp, w, hw, ?_⟩
                show (splitEq s).1 <+: w
                rw [he]
                exact List.prefix_refl _
            unfold optExact at hx
            split at hx
            · next o hl =>
              have hw := lookup_word hl
              refine key s hw (List.prefix_refl _) ?_
              rw [splitEq_plain]
              rcases optWords_form s hw with hf | ⟨-, -, hf⟩
              · rw [hf]; decide
              · exact hf
            · rw [if_neg hl] at hx
              split at hx
              · cases hk : optStrings.lookup (splitEq s).1 with
                | none => rw [hk] at hx; cases hx
                | some o => exact key _ (lookup_word hk) (splitEq_prefix s) rfl
              · cases hx
    | none =>
      have hl := exact_length hx
      simp only
      constructor
      · intro h
        split at h
        · next hm =>
          split at h
          · next hc =>
            cases h
            refine ⟨rfl, .inr (.inr ⟨?_, (noMatch hh hl).1 hm⟩)⟩
            simp only [Bool.or_eq_true, List.contains_iff_mem] at hc
            exact hc.imp (negNumber_iff a).1 id
          · cases h
        · exact absurd h optTok_value
        · cases h
      · rintro ⟨rfl, h | h | ⟨h0, h1⟩⟩
        · exact absurd hh h
        · subst h; simp at hl
        · rw [(noMatch hh hl).2 h1]
          simp only
          rw [if_pos]
          simp only [Bool.or_eq_true, List.contains_iff_mem]
          exact h0.imp (negNumber_iff s).2 id

/-! ## Command lines -/

/-- What options do to the namespace. -/
def applyArgs (c : Conf) : List CmdArg → Conf
  | [] => c
  | a :: as => applyArgs (c.set a.opt a.says) as

theorem applyArgs_append (c as bs) : applyArgs c (as ++ bs) = applyArgs (applyArgs c as) bs := by
  induction as generalizing c with
  | nil => rfl
  | cons a as ih => exact ih _

theorem applyArgs_name (c as) : (applyArgs c as).procname = c.procname := by
  induction as generalizing c with
  | nil => rfl
  | cons a as ih => rw [applyArgs, ih]; rfl

theorem applyArgs_setName (c as n) : applyArgs { c with procname := n } as = { applyArgs c as with procname := n } := by
  induction as generalizing c with
  | nil => rfl
  | cons a as ih => rw [applyArgs, applyArgs, ← ih]; rfl

theorem applyArgs_opts (c : Conf) (as : List CmdArg) (o : BootOpt) :
    (applyArgs c as).opts o = (((as.filter fun a => decide (a.opt = o)).getLast?).map CmdArg.says).getD (c.opts o) := by
  induction as generalizing c with
  | nil => rfl
  | cons a as ih =>
    rw [applyArgs, ih, List.filter_cons]
    split
    · rename_i ho
      rw [List.getLast?_cons]
      cases (as.filter fun b => decide (b.opt = o)).getLast? with
      | some b => simp
      | none => simp only [Option.map_none, Option.getD_none, Option.map_some, Option.getD_some, Conf.set]; rw [if_pos (by simpa using (of_decide_eq_true ho).symm)]
    · rename_i ho
      have : o ≠ a.opt := fun e => ho (by simp [e])
      simp only [Conf.set, if_neg this]

theorem applyArgs_said (n : Option (List Char)) (as : List CmdArg) (o : BootOpt) : (applyArgs { procname := n } as).opts o = said as o :=
  applyArgs_opts _ _ _

theorem conf_ext {c d : Conf} (h1 : c.procname = d.procname) (h2 : ∀ o, c.opts o = d.opts o) : c = d := by
  cases c; cases d
  simp only at h1 h2
  subst h1
  congr
  exact funext h2

theorem means_ne_dashes {t o} (h : Means t o) : t ≠ ['-', '-'] := by
  obtain ⟨c, r, rfl⟩ := means_form h
  simp

theorem word_ne_dashes {n} (h : ArgWord n) : n ≠ ['-', '-'] := by
  rintro rfl
  have : argTok ['-', '-'] = .stop := by decide +kernel
  rw [argTok_value.2 ⟨rfl, h⟩] at this
  cases this

theorem argToks_cons {a r} (h : a ≠ ['-', '-']) : argToks (a :: r) = argTok a :: argToks r := by
  rw [argToks, if_neg h]

theorem argToks_bare {t o} (h : Means t o) (r) : argToks (t :: r) = .opt o none :: argToks r := by
  rw [argToks_cons (means_ne_dashes h), argTok_bare h]

theorem argToks_eq {t o} (h : Means t o) (v r) : argToks ((t ++ '=' :: v) :: r) = .opt o (some v) :: argToks r := by
  rw [argToks_cons, argTok_eq h]
  obtain ⟨c, x, rfl⟩ := means_form h
  simp

theorem argToks_word {n} (h : ArgWord n) (r) : argToks (n :: r) = .value n :: argToks r := by
  rw [argToks_cons (word_ne_dashes h), argTok_value.2 ⟨rfl, h⟩]

/-- The first token is not a value. -/
def NoValue : List ArgTok → Prop
  | .value _ :: _ => False
  | _ => True

theorem takeToks_const (c o left) {r} (h : NoValue r) : takeToks c left (.opt o none :: r) = takeToks (c.set o .const) left r := by
  match r, h with
  | [], _ => rfl
  | .opt _ _ :: _, _ => rfl
  | .stop :: _, _ => rfl
  | .dashes :: _, _ => rfl

theorem noValue_words {as : List CmdArg} (h : ∀ a ∈ as, a.Ok) {r} (hr : NoValue (argToks r) ∨ as ≠ []) : NoValue (argToks (as.flatMap CmdArg.words ++ r)) := by
  cases as with
  | nil => simpa using hr
  | cons a as =>
    have ha := h a (by simp)
    cases a with
    | bare t o => simp only [List.flatMap_cons, CmdArg.words, List.cons_append, List.nil_append, argToks_bare (show Means t o from ha)]; trivial
    | eq t o v => simp only [List.flatMap_cons, CmdArg.words, List.cons_append, List.nil_append, argToks_eq (show Means t o from ha)]; trivial
    | sep t o v => simp only [List.flatMap_cons, CmdArg.words, List.cons_append, List.nil_append, argToks_bare (show Means t o from ha.1)]; trivial

/-- Options before anything else. -/
theorem takeToks_words (left : Bool) {r : List (List Char)} : ∀ (as : List CmdArg) (c : Conf), (∀ a ∈ as, a.Ok) →
    ((∃ a, as.getLast? = some a ∧ a.IsBare) → NoValue (argToks r)) →
    takeToks c left (argToks (as.flatMap CmdArg.words ++ r)) = takeToks (applyArgs c as) left (argToks r)
  | [], _, _, _ => rfl
  | a :: as, c, h, hr => by
    have ha := h a (by simp)
    have hr' : (∃ a, as.getLast? = some a ∧ a.IsBare) → NoValue (argToks r) := by
      rintro ⟨b, hb, hb'⟩
      refine hr ⟨b, ?_, hb'⟩
      rw [List.getLast?_cons, hb]; rfl
    have ih := takeToks_words left as (c.set a.opt a.says) (fun b hb => h b (by simp [hb])) hr'
    rw [applyArgs, ← ih]
    cases a with
    | bare t o =>
      simp only [List.flatMap_cons, CmdArg.words, List.cons_append, List.nil_append, argToks_bare (show Means t o from ha)]
      refine takeToks_const _ _ _ (noValue_words (fun b hb => h b (by simp [hb])) ?_)
      by_cases has : as = []
      · subst has; exact .inl (hr ⟨.bare t o, rfl, trivial⟩)
      · exact .inr has
    | eq t o v => simp only [List.flatMap_cons, CmdArg.words, List.cons_append, List.nil_append, argToks_eq (show Means t o from ha)]; rfl
    | sep t o v =>
      simp only [List.flatMap_cons, CmdArg.words, List.cons_append, List.nil_append, argToks_bare (show Means t o from ha.1), argToks_word ha.2]; rfl

theorem takeToks_all (left : Bool) (as : List CmdArg) (c : Conf) (h : ∀ a ∈ as, a.Ok) :
    takeToks c left (argToks (as.flatMap CmdArg.words)) = some (applyArgs c as) := by
  have := takeToks_words left (r := []) as c h (fun _ => trivial)
  rw [List.append_nil] at this
  rw [this]; rfl

/-- Every command line of the grammar is accepted. -/
theorem parse_line (l : CmdLine) (h : l.Ok) : parseArgs l.words = some (applyArgs { procname := l.name } l.options) := by
  unfold parseArgs
  have hdash : ∀ r, NoValue (argToks (['-', '-'] :: r)) := by intro r; rw [argToks, if_pos rfl]; trivial
  cases l with
  | noName as d =>
    have h : ∀ a ∈ as, a.Ok := h
    simp only [CmdLine.words, CmdLine.name, CmdLine.options]
    cases d with
    | false => rw [if_neg (by simp), takeToks_words true (r := []) as {} h (fun _ => trivial)]; rfl
    | true => rw [if_pos rfl, takeToks_words true as {} h (fun _ => hdash [])]; rfl
  | named as n bs d =>
    obtain ⟨h1, h2, h3, h4, h5⟩ := h
    simp only [CmdLine.words, CmdLine.name, CmdLine.options]
    rw [takeToks_words true as {} h1 (fun ⟨a, ha, hb⟩ => absurd hb (h4 a ha)), argToks_word h3]
    have hval : ∀ r, r ≠ [.dashes] → takeToks (applyArgs {} as) true (.value n :: r) = takeToks { applyArgs {} as with procname := some n } false r := by
      intro r hr
      rw [takeToks, if_pos rfl]
      exact hr
    cases d with
    | false =>
      rw [if_neg (by simp), List.append_nil, hval, takeToks_all false bs _ h2, applyArgs_append, ← applyArgs_setName]
      cases bs with
      | nil => simp [argToks]
      | cons b bs =>
        have hb := h2 b (by simp)
        cases b with
        | bare t o => simp only [List.flatMap_cons, CmdArg.words, List.cons_append, List.nil_append, argToks_bare (show Means t o from hb)]; simp
        | eq t o v => simp only [List.flatMap_cons, CmdArg.words, List.cons_append, List.nil_append, argToks_eq (show Means t o from hb)]; simp
        | sep t o v => simp only [List.flatMap_cons, CmdArg.words, List.cons_append, List.nil_append, argToks_bare (show Means t o from hb.1)]; simp
    | true =>
      rw [h5 rfl]
      simp only [List.flatMap_nil, List.nil_append, if_true, argToks, List.map_nil, takeToks, List.append_nil]
      exact congrArg some (applyArgs_setName {} as (some n)).symm
  | behind as n =>
    have h : ∀ a ∈ as, a.Ok := h
    simp only [CmdLine.words, CmdLine.name, CmdLine.options]
    rw [takeToks_words true as {} h (fun _ => hdash [n])]
    simp only [argToks, if_true, List.map_cons, List.map_nil, takeToks]
    exact congrArg some (applyArgs_setName {} as (some n)).symm

/-! ## Nothing else -/

theorem argToks_dash {r} : argToks (['-', '-'] :: r) = .dashes :: r.map .value := by rw [argToks, if_pos rfl]

theorem optTok_ne_dashes (o v) : optTok o v ≠ .dashes := by cases o <;> simp [optTok]

theorem argTok_ne_dashes (a) : argTok a ≠ .dashes := by
  unfold argTok
  split
  · simp
  · split
    · next t ht =>
      rintro rfl
      unfold optExact at ht
      split at ht
      · simp only [Option.some.injEq] at ht; exact optTok_ne_dashes _ _ ht
      · split at ht
        · cases ht
        · split at ht
          · cases hl : optStrings.lookup (splitEq a).1 with
            | none => rw [hl] at ht; cases ht
            | some o => rw [hl] at ht; simp only [Option.map_some, Option.some.injEq] at ht; exact optTok_ne_dashes _ _ ht
          · cases ht
    · split
      · split <;> simp
      · exact optTok_ne_dashes _ _
      · simp

theorem noValue_or (r : List (List Char)) : NoValue (argToks r) ∨ ∃ b r', r = b :: r' ∧ ArgWord b := by
  cases r with
  | nil => exact .inl trivial
  | cons b r =>
    by_cases hb : b = ['-', '-']
    · subst hb; rw [argToks_dash]; exact .inl trivial
    · rw [argToks_cons hb]
      cases ht : argTok b with
      | value s => exact .inr ⟨b, r, rfl, (argTok_value.1 ht).2⟩
      | opt o v => exact .inl trivial
      | dashes => exact .inl trivial
      | stop => exact .inl trivial

/-- How a command line can begin. -/
theorem take_cases {c c' : Conf} {left : Bool} {ws : List (List Char)} (h : takeToks c left (argToks ws) = some c') :
    (ws = [] ∧ c' = c) ∨
    (∃ a : CmdArg, ∃ r, a.Ok ∧ ws = a.words ++ r ∧ (a.IsBare → NoValue (argToks r)) ∧ takeToks (c.set a.opt a.says) left (argToks r) = some c') ∨
    (∃ n r, left = true ∧ ArgWord n ∧ ws = n :: r ∧
      ((r = [['-', '-']] ∧ c' = { c with procname := some n }) ∨ takeToks { c with procname := some n } false (argToks r) = some c')) ∨
    (left = true ∧ ((ws = [['-', '-']] ∧ c' = c) ∨ ∃ n, ws = [['-', '-'], n] ∧ c' = { c with procname := some n })) := by
  cases ws with
  | nil => simp only [argToks, takeToks, Option.some.injEq] at h; exact .inl ⟨rfl, h.symm⟩
  | cons w r =>
    right
    by_cases hw : w = ['-', '-']
    · right; right
      subst hw
      rw [argToks_dash] at h
      cases left with
      | false => simp [takeToks] at h
      | true =>
        refine ⟨rfl, ?_⟩
        match r with
        | [] => simp only [List.map_nil, takeToks, if_true, Option.some.injEq] at h; exact .inl ⟨rfl, h.symm⟩
        | [n] => simp only [List.map_cons, List.map_nil, takeToks, if_true, Option.some.injEq] at h; exact .inr ⟨n, rfl, h.symm⟩
        | a :: b :: r => simp [takeToks] at h
    · rw [argToks_cons hw] at h
      cases ht : argTok w with
      | stop => rw [ht, takeToks] at h; cases h
      | dashes => exact absurd ht (argTok_ne_dashes w)
      | value s =>
        right; left
        obtain ⟨rfl, hword⟩ := argTok_value.1 ht
        rw [ht] at h
        cases left with
        | false => simp [takeToks] at h
        | true =>
          refine ⟨s, r, rfl, hword, rfl, ?_⟩
          by_cases hr : argToks r = [.dashes]
          · left
            rw [hr] at h
            simp only [takeToks, if_true, Option.some.injEq] at h
            refine ⟨?_, h.symm⟩
            cases r with
            | nil => cases hr
            | cons b r =>
              by_cases hb : b = ['-', '-']
              · subst hb
                rw [argToks_dash] at hr
                simp only [List.cons.injEq, List.map_eq_nil_iff, true_and] at hr
                rw [hr]
              · rw [argToks_cons hb] at hr
                simp only [List.cons.injEq] at hr
                exact absurd hr.1 (argTok_ne_dashes b)
          · right
            rw [takeToks, if_pos rfl] at h
            · exact h
            · exact hr
      | opt o x =>
        left
        obtain ⟨t, hm, rfl⟩ := argTok_opt ht
        rw [ht] at h
        cases x with
        | some v => exact ⟨.eq t o v, r, hm, by simp [CmdArg.words], fun hb => hb.elim, h⟩
        | none =>
          rcases noValue_or r with hr | ⟨b, r', rfl, hb⟩
          · rw [takeToks_const _ _ _ hr] at h
            exact ⟨.bare t o, r, hm, by simp [CmdArg.words], fun _ => hr, h⟩
          · rw [argToks_word hb] at h
            exact ⟨.sep t o b, r', ⟨hm, hb⟩, by simp [CmdArg.words], fun hb => hb.elim, h⟩

theorem words_length (a : CmdArg) : 0 < a.words.length := by cases a <;> simp [CmdArg.words]

/-- What comes behind the name: only options. -/
theorem take_false : ∀ (n : Nat) (ws : List (List Char)) (c c' : Conf), ws.length ≤ n → takeToks c false (argToks ws) = some c' →
    ∃ as : List CmdArg, (∀ a ∈ as, a.Ok) ∧ ws = as.flatMap CmdArg.words ∧ c' = applyArgs c as := by
  intro n
  induction n with
  | zero =>
    intro ws c c' hn h
    have : ws = [] := List.length_eq_zero_iff.1 (by omega)
    subst this
    simp only [argToks, takeToks, Option.some.injEq] at h
    exact ⟨[], by simp, rfl, h.symm⟩
  | succ n ih =>
    intro ws c c' hn h
    rcases take_cases h with ⟨rfl, rfl⟩ | ⟨a, r, ha, rfl, -, h'⟩ | ⟨_, _, hl, _⟩ | ⟨hl, _⟩
    · exact ⟨[], by simp, rfl, rfl⟩
    · have := words_length a
      rw [List.length_append] at hn
      obtain ⟨as, h1, h2, h3⟩ := ih r _ c' (by omega) h'
      refine ⟨a :: as, ?_, by rw [List.flatMap_cons, h2], h3⟩
      intro b hb
      rcases List.mem_cons.1 hb with rfl | hb
      · exact ha
      · exact h1 b hb
    · cases hl
    · cases hl

/-- One more option in front. -/
def CmdLine.pre (a : CmdArg) : CmdLine → CmdLine
  | .noName as d => .noName (a :: as) d
  | .named as n bs d => .named (a :: as) n bs d
  | .behind as n => .behind (a :: as) n

/-- With the name still to come. -/
theorem take_true : ∀ (n : Nat) (ws : List (List Char)) (c c' : Conf), ws.length ≤ n → takeToks c true (argToks ws) = some c' → c.procname = none →
    ∃ l : CmdLine, l.Ok ∧ ws = l.words ∧ c' = applyArgs { c with procname := l.name } l.options := by
  intro n
  have hname : ∀ {c : Conf}, c.procname = none → ({ c with procname := none } : Conf) = c := by
    rintro ⟨p, o⟩ h; simp only at h; rw [h]
  induction n with
  | zero =>
    intro ws c c' hn h hc
    have : ws = [] := List.length_eq_zero_iff.1 (by omega)
    subst this
    simp only [argToks, takeToks, Option.some.injEq] at h
    exact ⟨.noName [] false, by simp [CmdLine.Ok], rfl, by rw [← h]; exact (hname hc).symm⟩
  | succ n ih =>
    intro ws c c' hn h hc
    rcases take_cases h with ⟨rfl, rfl⟩ | ⟨a, r, ha, rfl, hb, h'⟩ | ⟨m, r, -, hm, rfl, h'⟩ | ⟨-, ⟨rfl, rfl⟩ | ⟨m, rfl, rfl⟩⟩
    · exact ⟨.noName [] false, by simp [CmdLine.Ok], rfl, (hname hc).symm⟩
    · have hl := words_length a
      rw [List.length_append] at hn
      obtain ⟨l, h1, h2, h3⟩ := ih r _ c' (by omega) h' hc
      refine ⟨l.pre a, ?_, ?_, ?_⟩
      · cases l with
        | noName as d => exact fun b hb => by rcases List.mem_cons.1 hb with rfl | hb <;> (first | exact ha | exact h1 b hb)
        | behind as m => exact fun b hb => by rcases List.mem_cons.1 hb with rfl | hb <;> (first | exact ha | exact h1 b hb)
        | named as m bs d =>
          obtain ⟨k1, k2, k3, k4, k5⟩ := h1
          refine ⟨fun b hb => by rcases List.mem_cons.1 hb with rfl | hb <;> (first | exact ha | exact k1 b hb), k2, k3, ?_, k5⟩
          intro b hbm hbare
          cases as with
          | nil =>
            simp only [List.getLast?_singleton, Option.mem_some_iff] at hbm
            subst hbm
            have := hb hbare
            rw [h2] at this
            simp only [CmdLine.words, List.flatMap_nil, List.nil_append] at this
            rw [argToks_word k3] at this
            exact this
          | cons x as =>
            rw [List.getLast?_cons_cons] at hbm
            exact k4 b hbm hbare
      · rw [h2]; cases l <;> simp [CmdLine.pre, CmdLine.words]
      · rw [h3]
        cases l <;> rfl
    · rcases h' with ⟨rfl, rfl⟩ | h'
      · exact ⟨.named [] m [] true, by simp [CmdLine.Ok, hm], rfl, rfl⟩
      · obtain ⟨as, k1, k2, k3⟩ := take_false _ r _ c' (Nat.le_refl _) h'
        exact ⟨.named [] m as false, by simpa [CmdLine.Ok, hm] using k1, by simp [CmdLine.words, k2], by rw [k3]; rfl⟩
    · exact ⟨.noName [] true, by simp [CmdLine.Ok], rfl, (hname hc).symm⟩
    · exact ⟨.behind [] m, by simp [CmdLine.Ok], rfl, rfl⟩

end Verif
