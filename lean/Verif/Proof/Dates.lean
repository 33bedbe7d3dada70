import Verif.Proof.Text
import Verif.Spec.Dates
/-! # Which ASCII texts `strptime` accepts -/
namespace Verif

theorem uni_ascii {c : Char} (h : c.toNat < 128) : isUniDigit c = true ↔ 48 ≤ c.toNat ∧ c.toNat ≤ 57 := by
  have h1 : ∀ n < 128, isUniDigit (Char.ofNat n) = true ↔ 48 ≤ n ∧ n ≤ 57 := by decide +kernel
  have := h1 c.toNat h
  rwa [Char.ofNat_toNat] at this

/-- An ASCII digit. -/
abbrev Dig (c : Char) : Prop := 48 ≤ c.toNat ∧ c.toNat ≤ 57

theorem decimal_groupInt {s : List Char} {n : Nat} : Decimal s n ↔ s ≠ [] ∧ (∀ c ∈ s, Dig c) ∧ groupInt s = n := by
  unfold Decimal groupInt
  have : (∀ c ∈ s, Dig c) → s.foldl (fun n c => 10 * n + (uniDigit c).getD 0) 0 =
      s.foldl (fun n c => 10 * n + (c.toNat - '0'.toNat)) 0 := by
    suffices ∀ k, (∀ c ∈ s, Dig c) → s.foldl (fun n c => 10 * n + (uniDigit c).getD 0) k =
      s.foldl (fun n c => 10 * n + (c.toNat - '0'.toNat)) k from this 0
    induction s with
    | nil => intro _ _; rfl
    | cons c s ih =>
      intro k h
      simp only [List.foldl_cons]
      rw [uniDigit_of_ascii (h c List.mem_cons_self)]
      exact ih _ fun c hc => h c (List.mem_cons_of_mem _ hc)
  constructor
  · rintro ⟨h1, h2, h3⟩; exact ⟨h1, h2, by rw [this h2]; exact h3⟩
  · rintro ⟨h1, h2, h3⟩; exact ⟨h1, h2, by rw [← this h2]; exact h3⟩

theorem short_iff {s : List Char} {n : Nat} : Short s n ↔ (∃ c, s = [c] ∧ Dig c ∧ n = c.toNat - 48) ∨
    ∃ c e, s = [c, e] ∧ Dig c ∧ Dig e ∧ n = 10 * (c.toNat - 48) + (e.toNat - 48) := by
  unfold Short
  rw [decimal_groupInt]
  match s with
  | [] => simp
  | [c] =>
    simp only [List.length_cons, List.length_nil, List.mem_singleton, forall_eq, List.cons.injEq, and_true, exists_eq_left',
      ne_eq, List.cons_ne_nil, not_false_eq_true, true_and, reduceCtorEq, and_false, false_and, exists_false, or_false]
    constructor
    · rintro ⟨_, h1, h2⟩
      refine ⟨h1, ?_⟩
      rw [← h2]
      simp [groupInt, uniDigit_of_ascii h1]
    · rintro ⟨h1, h2⟩
      refine ⟨by omega, h1, ?_⟩
      simp [groupInt, uniDigit_of_ascii h1, h2]
  | [c, e] =>
    simp only [List.length_cons, List.length_nil, List.mem_cons, List.not_mem_nil, or_false, forall_eq_or_imp, forall_eq,
      ne_eq, List.cons_ne_nil, not_false_eq_true, true_and, List.cons.injEq, reduceCtorEq, and_false, false_and, exists_false, false_or, and_true]
    constructor
    · rintro ⟨_, ⟨h1, h2⟩, h3⟩
      refine ⟨c, e, ⟨rfl, rfl⟩, h1, h2, ?_⟩
      rw [← h3]
      simp [groupInt, uniDigit_of_ascii h1, uniDigit_of_ascii h2]
    · rintro ⟨_, _, ⟨rfl, rfl⟩, h1, h2, h3⟩
      refine ⟨by omega, ⟨h1, h2⟩, ?_⟩
      simp [groupInt, uniDigit_of_ascii h1, uniDigit_of_ascii h2, h3]
  | c :: e :: f :: r =>
    simp only [List.length_cons, List.cons.injEq, reduceCtorEq, and_false, false_and, exists_false, or_false, iff_false, not_and]
    omega

theorem groupInt_one {c : Char} (h : Dig c) : groupInt [c] = c.toNat - 48 := by simp [groupInt, uniDigit_of_ascii h]
theorem groupInt_two {c e : Char} (h : Dig c) (h' : Dig e) : groupInt [c, e] = 10 * (c.toNat - 48) + (e.toNat - 48) := by
  simp [groupInt, uniDigit_of_ascii h, uniDigit_of_ascii h']

theorem short_groupInt {s : List Char} {n : Nat} (h : Short s n) : groupInt s = n := (decimal_groupInt.1 h.2).2.2

theorem one_alt {p : Char → Bool} {s : List Char} : Matches [p] s ↔ ∃ c, s = [c] ∧ p c = true := by
  match s with
  | [] => simp [Matches]
  | [c] => simp [Matches]
  | c :: e :: r => simp [Matches]

theorem two_alt {p q : Char → Bool} {s : List Char} : Matches [p, q] s ↔ ∃ c e, s = [c, e] ∧ p c = true ∧ q e = true := by
  match s with
  | [] => simp [Matches]
  | [c] => simp [Matches]
  | [c, e] =>
    simp only [Matches, and_true, List.cons.injEq]
    exact ⟨fun h => ⟨c, e, ⟨rfl, rfl⟩, h⟩, by rintro ⟨_, _, ⟨rfl, rfl⟩, h⟩; exact h⟩
  | c :: e :: f :: r => simp [Matches]

theorem month_ascii {s : List Char} {n : Nat} : (MatchesOne monthAlts s ∧ groupInt s = n) ↔ Short s n ∧ 1 ≤ n ∧ n ≤ 12 := by
  simp only [MatchesOne, monthAlts, List.mem_cons, List.not_mem_nil, or_false, exists_eq_or_imp, exists_eq_left, one_alt, two_alt, digs_iff]
  constructor
  · rintro ⟨⟨c, e, rfl, h1, h2⟩ | ⟨c, e, rfl, h1, h2⟩ | ⟨c, rfl, h1⟩, hn⟩
    · rw [groupInt_two ⟨by omega, by omega⟩ ⟨by omega, by omega⟩] at hn
      exact ⟨short_iff.2 (.inr ⟨c, e, rfl, ⟨by omega, by omega⟩, ⟨by omega, by omega⟩, hn.symm⟩), by omega, by omega⟩
    · rw [groupInt_two ⟨by omega, by omega⟩ ⟨by omega, by omega⟩] at hn
      exact ⟨short_iff.2 (.inr ⟨c, e, rfl, ⟨by omega, by omega⟩, ⟨by omega, by omega⟩, hn.symm⟩), by omega, by omega⟩
    · rw [groupInt_one ⟨by omega, by omega⟩] at hn
      exact ⟨short_iff.2 (.inl ⟨c, rfl, ⟨by omega, by omega⟩, hn.symm⟩), by omega, by omega⟩
  · rintro ⟨h, h1, h2⟩
    refine ⟨?_, short_groupInt h⟩
    rcases short_iff.1 h with ⟨c, rfl, ⟨h3, h4⟩, h5⟩ | ⟨c, e, rfl, ⟨h3, h4⟩, ⟨h5, h6⟩, h7⟩
    · exact .inr (.inr ⟨c, rfl, by omega, by omega⟩)
    · by_cases hc : c.toNat = 48
      · exact .inr (.inl ⟨c, e, rfl, by omega, by omega⟩)
      · exact .inl ⟨c, e, rfl, by omega, by omega⟩

theorem space_of {c : Char} (h : chars 32 32 c = true) : c = ' ' := by
  simp only [chars, Bool.and_eq_true, decide_eq_true_eq] at h
  apply Char.toNat_inj.1
  change c.toNat = 32
  omega

theorem day_ascii {s : List Char} (ha : AsciiText s) {n : Nat} : (MatchesOne dayAlts s ∧ groupInt s = n) ↔
    (Short s n ∨ ∃ c, s = [' ', c] ∧ Decimal [c] n) ∧ 1 ≤ n ∧ n ≤ 31 := by
  have hsp : ∀ {c : Char}, Dig c → groupInt [' ', c] = c.toNat - 48 := by
    intro c h
    have h1 : (uniDigit ' ').getD 0 = 0 := by decide +kernel
    simp [groupInt, uniDigit_of_ascii h, h1]
  simp only [MatchesOne, dayAlts, List.mem_cons, List.not_mem_nil, or_false, exists_eq_or_imp, exists_eq_left, one_alt, two_alt, digs_iff]
  constructor
  · rintro ⟨⟨c, e, rfl, h1, h2⟩ | ⟨c, e, rfl, h1, h2⟩ | ⟨c, e, rfl, h1, h2⟩ | ⟨c, rfl, h1⟩ | ⟨c, e, rfl, h1, h2⟩, hn⟩
    · rw [groupInt_two ⟨by omega, by omega⟩ ⟨by omega, by omega⟩] at hn
      exact ⟨.inl (short_iff.2 (.inr ⟨c, e, rfl, ⟨by omega, by omega⟩, ⟨by omega, by omega⟩, hn.symm⟩)), by omega, by omega⟩
    · rw [uni_ascii (ha e (by simp))] at h2
      rw [groupInt_two ⟨by omega, by omega⟩ h2] at hn
      exact ⟨.inl (short_iff.2 (.inr ⟨c, e, rfl, ⟨by omega, by omega⟩, h2, hn.symm⟩)), by omega, by omega⟩
    · rw [groupInt_two ⟨by omega, by omega⟩ ⟨by omega, by omega⟩] at hn
      exact ⟨.inl (short_iff.2 (.inr ⟨c, e, rfl, ⟨by omega, by omega⟩, ⟨by omega, by omega⟩, hn.symm⟩)), by omega, by omega⟩
    · rw [groupInt_one ⟨by omega, by omega⟩] at hn
      exact ⟨.inl (short_iff.2 (.inl ⟨c, rfl, ⟨by omega, by omega⟩, hn.symm⟩)), by omega, by omega⟩
    · have := space_of h1
      subst this
      have he : Dig e := ⟨by omega, by omega⟩
      rw [hsp he] at hn
      refine ⟨.inr ⟨e, rfl, decimal_groupInt.2 ⟨by simp, by simpa using he, by rw [groupInt_one he]; exact hn⟩⟩, by omega, by omega⟩
  · rintro ⟨h | ⟨c, rfl, h⟩, h1, h2⟩
    · refine ⟨?_, short_groupInt h⟩
      rcases short_iff.1 h with ⟨c, rfl, ⟨h3, h4⟩, h5⟩ | ⟨c, e, rfl, ⟨h3, h4⟩, ⟨h5, h6⟩, h7⟩
      · exact .inr (.inr (.inr (.inl ⟨c, rfl, by omega, by omega⟩)))
      · by_cases hc : c.toNat = 48
        · exact .inr (.inr (.inl ⟨c, e, rfl, by omega, by omega⟩))
        · by_cases hc' : c.toNat = 51
          · exact .inl ⟨c, e, rfl, by omega, by omega⟩
          · exact .inr (.inl ⟨c, e, rfl, by omega, (uni_ascii (ha e (by simp))).2 ⟨h5, h6⟩⟩)
    · obtain ⟨_, hd, hn⟩ := decimal_groupInt.1 h
      have hc : Dig c := hd c (by simp)
      rw [groupInt_one hc] at hn
      exact ⟨.inr (.inr (.inr (.inr ⟨' ', c, rfl, by decide, by omega, by omega⟩))), by rw [hsp hc]; exact hn⟩

theorem hour_ascii {s : List Char} (ha : AsciiText s) {n : Nat} : (MatchesOne hourAlts s ∧ groupInt s = n) ↔ Short s n ∧ n < 24 := by
  simp only [MatchesOne, hourAlts, List.mem_cons, List.not_mem_nil, or_false, exists_eq_or_imp, exists_eq_left, one_alt, two_alt, digs_iff]
  constructor
  · rintro ⟨⟨c, e, rfl, h1, h2⟩ | ⟨c, e, rfl, h1, h2⟩ | ⟨c, rfl, h1⟩, hn⟩
    · rw [groupInt_two ⟨by omega, by omega⟩ ⟨by omega, by omega⟩] at hn
      exact ⟨short_iff.2 (.inr ⟨c, e, rfl, ⟨by omega, by omega⟩, ⟨by omega, by omega⟩, hn.symm⟩), by omega⟩
    · rw [uni_ascii (ha e (by simp))] at h2
      rw [groupInt_two ⟨by omega, by omega⟩ h2] at hn
      exact ⟨short_iff.2 (.inr ⟨c, e, rfl, ⟨by omega, by omega⟩, h2, hn.symm⟩), by omega⟩
    · rw [uni_ascii (ha c (by simp))] at h1
      rw [groupInt_one h1] at hn
      exact ⟨short_iff.2 (.inl ⟨c, rfl, h1, hn.symm⟩), by omega⟩
  · rintro ⟨h, h1⟩
    refine ⟨?_, short_groupInt h⟩
    rcases short_iff.1 h with ⟨c, rfl, h3, h5⟩ | ⟨c, e, rfl, ⟨h3, h4⟩, ⟨h5, h6⟩, h7⟩
    · exact .inr (.inr ⟨c, rfl, (uni_ascii (ha c (by simp))).2 h3⟩)
    · by_cases hc : c.toNat = 50
      · exact .inl ⟨c, e, rfl, by omega, by omega⟩
      · exact .inr (.inl ⟨c, e, rfl, by omega, (uni_ascii (ha e (by simp))).2 ⟨h5, h6⟩⟩)

theorem minute_ascii {s : List Char} (ha : AsciiText s) {n : Nat} : (MatchesOne minuteAlts s ∧ groupInt s = n) ↔ Short s n ∧ n < 60 := by
  simp only [MatchesOne, minuteAlts, List.mem_cons, List.not_mem_nil, or_false, exists_eq_or_imp, exists_eq_left, one_alt, two_alt, digs_iff]
  constructor
  · rintro ⟨⟨c, e, rfl, h1, h2⟩ | ⟨c, rfl, h1⟩, hn⟩
    · rw [uni_ascii (ha e (by simp))] at h2
      rw [groupInt_two ⟨by omega, by omega⟩ h2] at hn
      exact ⟨short_iff.2 (.inr ⟨c, e, rfl, ⟨by omega, by omega⟩, h2, hn.symm⟩), by omega⟩
    · rw [uni_ascii (ha c (by simp))] at h1
      rw [groupInt_one h1] at hn
      exact ⟨short_iff.2 (.inl ⟨c, rfl, h1, hn.symm⟩), by omega⟩
  · rintro ⟨h, h1⟩
    refine ⟨?_, short_groupInt h⟩
    rcases short_iff.1 h with ⟨c, rfl, h3, h5⟩ | ⟨c, e, rfl, ⟨h3, h4⟩, ⟨h5, h6⟩, h7⟩
    · exact .inr ⟨c, rfl, (uni_ascii (ha c (by simp))).2 h3⟩
    · exact .inl ⟨c, e, rfl, by omega, (uni_ascii (ha e (by simp))).2 ⟨h5, h6⟩⟩

theorem second_ascii {s : List Char} (ha : AsciiText s) {n : Nat} (hn : n < 60) :
    (MatchesOne secondAlts s ∧ groupInt s = n) ↔ Short s n := by
  simp only [MatchesOne, secondAlts, List.mem_cons, List.not_mem_nil, or_false, exists_eq_or_imp, exists_eq_left, one_alt, two_alt, digs_iff]
  constructor
  · rintro ⟨⟨c, e, rfl, h1, h2⟩ | ⟨c, e, rfl, h1, h2⟩ | ⟨c, rfl, h1⟩, hn'⟩
    · rw [groupInt_two ⟨by omega, by omega⟩ ⟨by omega, by omega⟩] at hn'
      omega
    · rw [uni_ascii (ha e (by simp))] at h2
      rw [groupInt_two ⟨by omega, by omega⟩ h2] at hn'
      exact short_iff.2 (.inr ⟨c, e, rfl, ⟨by omega, by omega⟩, h2, hn'.symm⟩)
    · rw [uni_ascii (ha c (by simp))] at h1
      rw [groupInt_one h1] at hn'
      exact short_iff.2 (.inl ⟨c, rfl, h1, hn'.symm⟩)
  · intro h
    refine ⟨?_, short_groupInt h⟩
    rcases short_iff.1 h with ⟨c, rfl, h3, h5⟩ | ⟨c, e, rfl, ⟨h3, h4⟩, ⟨h5, h6⟩, h7⟩
    · exact .inr (.inr ⟨c, rfl, (uni_ascii (ha c (by simp))).2 h3⟩)
    · exact .inr (.inl ⟨c, e, rfl, by omega, (uni_ascii (ha e (by simp))).2 ⟨h5, h6⟩⟩)

theorem year_ascii {s : List Char} (ha : AsciiText s) {n : Nat} : (MatchesOne yearAlts s ∧ groupInt s = n) ↔ s.length = 4 ∧ Decimal s n := by
  rw [decimal_groupInt]
  have : yearAlts = [List.replicate 4 isUniDigit] := rfl
  simp only [MatchesOne, this, List.mem_singleton, exists_eq_left, matches_replicate]
  constructor
  · rintro ⟨⟨h1, h2⟩, h3⟩
    exact ⟨h1, by rintro rfl; simp at h1, fun c hc => (uni_ascii (ha c hc)).1 (h2 c hc), h3⟩
  · rintro ⟨h1, _, h2, h3⟩
    exact ⟨⟨h1, fun c hc => (uni_ascii (ha c hc)).2 (h2 c hc)⟩, h3⟩

theorem fraction_decimal {s : List Char} {n : Nat} : (MatchesOne fractionAlts s ∧ groupInt s = n) ↔ s.length ≤ 6 ∧ Decimal s n := by
  rw [matches_fraction, decimal_groupInt]
  simp only [digs_iff]
  constructor
  · rintro ⟨⟨h1, h2, h3⟩, h4⟩
    exact ⟨h2, by rintro rfl; simp at h1, h3, h4⟩
  · rintro ⟨h1, h2, h3, h4⟩
    refine ⟨⟨?_, h1, h3⟩, h4⟩
    cases s with
    | nil => exact absurd rfl h2
    | cons c s => simp

theorem AsciiText.left {a b : List Char} (h : AsciiText (a ++ b)) : AsciiText a := fun c hc => h c (List.mem_append_left _ hc)
theorem AsciiText.right {a b : List Char} (h : AsciiText (a ++ b)) : AsciiText b := fun c hc => h c (List.mem_append_right _ hc)
theorem AsciiText.tail {c : Char} {b : List Char} (h : AsciiText (c :: b)) : AsciiText b := fun x hx => h x (List.mem_cons_of_mem _ hx)

/-- The ASCII texts that are read as a date. -/
theorem parseDate_ascii {s : List Char} (ha : AsciiText s) (x : Date) :
    parseDate s = .ok x ↔ DateText s x.year x.month x.day ∧ x.valid = true := by
  rw [parseDate_iff]
  constructor
  · rintro ⟨y, m, d, rfl, hy, hm, hd, rfl, hv⟩
    have h1 := (year_ascii ha.left).1 ⟨hy, rfl⟩
    have h2 := month_ascii.1 ⟨hm, rfl⟩
    have h3 := (day_ascii ha.right.tail.right.tail).1 ⟨hd, rfl⟩
    exact ⟨⟨y, m, d, rfl, h1.1, h1.2, h2.1, h3.1⟩, hv⟩
  · rintro ⟨⟨Y, M, D, rfl, h1, h2, h3, h4⟩, hv⟩
    have hv' := (Date.valid_iff x).1 hv
    have hd := daysInMonth_le x.year x.month
    obtain ⟨h5, h6⟩ := (year_ascii ha.left).2 ⟨h1, h2⟩
    obtain ⟨h7, h8⟩ := month_ascii.2 ⟨h3, by omega, by omega⟩
    obtain ⟨h9, h10⟩ := (day_ascii ha.right.tail.right.tail).2 ⟨h4, by omega, by omega⟩
    exact ⟨Y, M, D, rfl, h5, h7, h9, by rw [h6, h8, h10], hv⟩

/-- The ASCII texts that are read as a date with a time. -/
theorem parseDateTime_ascii {s : List Char} (ha : AsciiText s) (x : DateTime) : parseDateTime s = .ok x ↔
    DateTimeText s x.year x.month x.day x.hour x.minute x.second x.micro ∧ x.valid = true ∧ x.tz = none ∧ x.fold = false := by
  rw [parseDateTime_iff]
  constructor
  · rintro ⟨y, m, d, T, h, mi, se, f, rfl, hT, hy, hm, hd, hh, hmi, hse, hf, rfl, hv⟩
    have hv' := (DateTime.valid_iff _).1 hv
    have h1 := (year_ascii ha.left).1 ⟨hy, rfl⟩
    have h2 := month_ascii.1 ⟨hm, rfl⟩
    have a3 := ha.right.tail.right.tail
    have h3 := (day_ascii a3.left).1 ⟨hd, rfl⟩
    have a4 := a3.right.tail
    have h4 := (hour_ascii a4.left).1 ⟨hh, rfl⟩
    have a5 := a4.right.tail
    have h5 := (minute_ascii a5.left).1 ⟨hmi, rfl⟩
    have a6 := a5.right.tail
    have h6 := (second_ascii a6.left hv'.2.2.2.1).1 ⟨hse, rfl⟩
    have h7 := fraction_decimal.1 ⟨hf, rfl⟩
    refine ⟨⟨y ++ '-' :: (m ++ '-' :: d), T, h, mi, se, f, groupInt f, by simp, ⟨y, m, d, rfl, h1.1, h1.2, h2.1, h3.1⟩, hT, h4.1, h5.1, h6,
      h7.1, h7.2, rfl⟩, hv, rfl, rfl⟩
  · rintro ⟨⟨D, T, H, M, S, F, f, rfl, ⟨Y, Mo, Da, rfl, h1, h2, h3, h4⟩, hT, h5, h6, h7, h8, h9, h10⟩, hv, htz, hfo⟩
    have hv' := (DateTime.valid_iff x).1 hv
    have hv'' := (Date.valid_iff _).1 hv'.1
    simp only at hv''
    have hd := daysInMonth_le x.year x.month
    have aD := ha.left
    have a4 := ha.right.tail
    have a5 := a4.right.tail
    have a6 := a5.right.tail
    obtain ⟨y1, y2⟩ := (year_ascii aD.left).2 ⟨h1, h2⟩
    obtain ⟨m1, m2⟩ := month_ascii.2 ⟨h3, by omega, by omega⟩
    obtain ⟨d1, d2⟩ := (day_ascii aD.right.tail.right.tail).2 ⟨h4, by omega, by omega⟩
    obtain ⟨e1, e2⟩ := (hour_ascii a4.left).2 ⟨h5, by omega⟩
    obtain ⟨f1, f2⟩ := (minute_ascii a5.left).2 ⟨h6, by omega⟩
    obtain ⟨g1, g2⟩ := (second_ascii a6.left hv'.2.2.2.1).2 h7
    obtain ⟨k1, k2⟩ := fraction_decimal.2 ⟨h8, h9⟩
    refine ⟨Y, Mo, Da, T, H, M, S, F, by simp, hT, y1, m1, d1, e1, f1, g1, k1, ?_, hv⟩
    rw [y2, m2, d2, e2, f2, g2, k2, ← h10, ← htz, ← hfo]

end Verif
