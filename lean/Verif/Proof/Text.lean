import Verif.Model.Text
/-! # Lemmas about base64 and date strings -/
namespace Verif

theorem b64Val_b64Char : ∀ n, n < 64 → b64Val (b64Char n) = some n := by decide

theorem b64Char_ne_pad : ∀ n, n < 64 → b64Char n ≠ '=' := by decide

theorem u8_lt (a : UInt8) : a.toNat < 256 := a.toBitVec.isLt

theorem u8_ofNat (a : UInt8) (n : Nat) (h : n = a.toNat) : UInt8.ofNat n = a := by
  subst h; simp

/-- A character of the alphabet is read according to its place in the group. -/
theorem b64scan_data {c : Char} {v : Nat} (h : b64Val c = some v) (q l p : Nat) (r : List Char) :
    b64scan q l p (c :: r) =
      match q with
      | 0 => b64scan 1 v 0 r
      | 1 => (b64scan 2 (v % 16) 0 r).map (UInt8.ofNat (l * 4 + v / 16) :: ·)
      | 2 => (b64scan 3 (v % 4) 0 r).map (UInt8.ofNat (l * 16 + v / 4) :: ·)
      | _ => (b64scan 0 0 0 r).map (UInt8.ofNat (l * 64 + v) :: ·) := by
  have hc : c ≠ '=' := by rintro rfl; have h0 : b64Val '=' = none := (by decide); rw [h0] at h; cases h
  conv => lhs; unfold b64scan
  rw [if_neg hc, h]
  rfl

theorem b64scan_char (v : Nat) (q l p : Nat) (r : List Char) (h : v < 64) :
    b64scan q l p (b64Char v :: r) =
      match q with
      | 0 => b64scan 1 v 0 r
      | 1 => (b64scan 2 (v % 16) 0 r).map (UInt8.ofNat (l * 4 + v / 16) :: ·)
      | 2 => (b64scan 3 (v % 4) 0 r).map (UInt8.ofNat (l * 16 + v / 4) :: ·)
      | _ => (b64scan 0 0 0 r).map (UInt8.ofNat (l * 64 + v) :: ·) := b64scan_data (b64Val_b64Char v h) q l p r

theorem b64scan_pad (q l p : Nat) (r : List Char) :
    b64scan q l p ('=' :: r) = if 2 ≤ q then (if 4 ≤ q + (p + 1) then .ok [] else b64scan q l (p + 1) r) else b64scan q l p r := by
  conv => lhs; unfold b64scan
  rw [if_pos rfl]

theorem b64encode_ascii (b : Bytes) : (b64encode b).all (·.toNat < 128) = true := by
  have h : ∀ n, n < 64 → (b64Char n).toNat < 128 := by decide
  fun_induction b64encode b with
  | case1 => rfl
  | case2 a n =>
    have ha := u8_lt a
    simp [h (n / 64) (by omega), h (n % 64) (by omega)]
  | case3 a b n =>
    have ha := u8_lt a
    have hb := u8_lt b
    simp [h (n / 4096) (by omega), h (n / 64 % 64) (by omega), h (n % 64) (by omega)]
  | case4 a b c r n ih =>
    have ha := u8_lt a
    have hb := u8_lt b
    have hc := u8_lt c
    simp [h (n / 262144) (by omega), h (n / 4096 % 64) (by omega), h (n / 64 % 64) (by omega), h (n % 64) (by omega)]
    simpa using ih

theorem b64scan_encode (b : Bytes) : b64scan 0 0 0 (b64encode b) = .ok b := by
  fun_induction b64encode b with
  | case1 => rfl
  | case2 a n =>
    have ha := u8_lt a
    rw [b64scan_char _ _ _ _ _ (by omega)]
    simp only
    rw [b64scan_char _ _ _ _ _ (by omega)]
    simp only
    rw [b64scan_pad, if_pos (by omega), if_neg (by omega), b64scan_pad, if_pos (by omega), if_pos (by omega)]
    simp only [Except.map]
    rw [u8_ofNat a _ (by omega)]
  | case3 a b n =>
    have ha := u8_lt a
    have hb := u8_lt b
    rw [b64scan_char _ _ _ _ _ (by omega)]
    simp only
    rw [b64scan_char _ _ _ _ _ (by omega)]
    simp only
    rw [b64scan_char _ _ _ _ _ (by omega)]
    simp only
    rw [b64scan_pad, if_pos (by omega), if_pos (by omega)]
    simp only [Except.map]
    rw [u8_ofNat a _ (by omega), u8_ofNat b _ (by omega)]
  | case4 a b c r n ih =>
    have ha := u8_lt a
    have hb := u8_lt b
    have hc := u8_lt c
    rw [b64scan_char _ _ _ _ _ (by omega)]
    simp only
    rw [b64scan_char _ _ _ _ _ (by omega)]
    simp only
    rw [b64scan_char _ _ _ _ _ (by omega)]
    simp only
    rw [b64scan_char _ _ _ _ _ (by omega)]
    simp only
    rw [ih]
    simp only [Except.map]
    rw [u8_ofNat a _ (by omega), u8_ofNat b _ (by omega), u8_ofNat c _ (by omega)]

theorem b64_roundtrip (b : Bytes) : b64decode (b64encode b) = .ok b := by
  rw [b64decode, if_pos (b64encode_ascii b), b64scan_encode]

theorem b64encode_length (b : Bytes) : (b64encode b).length = 4 * ((b.length + 2) / 3) := by
  fun_induction b64encode b <;> simp_all <;> omega

theorem b64encode_alphabet (b : Bytes) (c : Char) (h : c ∈ b64encode b) :
    c = '=' ∨ ∃ n, n < 64 ∧ c = b64Char n := by
  fun_induction b64encode b with
  | case1 => simp at h
  | case2 a n =>
    have ha := u8_lt a
    simp only [List.mem_cons, List.not_mem_nil, or_false] at h
    rcases h with h | h | h | h
    · exact Or.inr ⟨_, by omega, h⟩
    · exact Or.inr ⟨_, by omega, h⟩
    · exact Or.inl h
    · exact Or.inl h
  | case3 a b n =>
    have ha := u8_lt a
    have hb := u8_lt b
    simp only [List.mem_cons, List.not_mem_nil, or_false] at h
    rcases h with h | h | h | h
    · exact Or.inr ⟨_, by omega, h⟩
    · exact Or.inr ⟨_, by omega, h⟩
    · exact Or.inr ⟨_, by omega, h⟩
    · exact Or.inl h
  | case4 a b c r n ih =>
    have ha := u8_lt a
    have hb := u8_lt b
    have hc := u8_lt c
    simp only [List.mem_cons] at h
    rcases h with h | h | h | h | h
    · exact Or.inr ⟨_, by omega, h⟩
    · exact Or.inr ⟨_, by omega, h⟩
    · exact Or.inr ⟨_, by omega, h⟩
    · exact Or.inr ⟨_, by omega, h⟩
    · exact ih h

/-! ## Dates -/

theorem padDec_length (w n : Nat) : (padDec w n).length = w := by
  induction w generalizing n with
  | zero => rfl
  | succ w ih => simp [padDec, ih]

/-- The text fits an alternative: as many characters, each in its class. -/
def Matches : Alt → List Char → Prop
  | [], [] => True
  | p :: ps, c :: cs => p c = true ∧ Matches ps cs
  | _, _ => False

/-- The text fits one of the alternatives. -/
def MatchesOne (alts : List Alt) (a : List Char) : Prop := ∃ alt ∈ alts, Matches alt a

theorem matchAlt_iff (alt : Alt) (s a r : List Char) : matchAlt alt s = some (a, r) ↔ s = a ++ r ∧ Matches alt a := by
  induction alt generalizing s a with
  | nil =>
    cases a with
    | nil => simp [matchAlt, Matches, eq_comm]
    | cons c a => simp [matchAlt, Matches]
  | cons p ps ih =>
    cases s with
    | nil =>
      cases a with
      | nil => simp [matchAlt, Matches]
      | cons c a => simp [matchAlt]
    | cons c s =>
      cases a with
      | nil =>
        simp only [matchAlt, Matches, and_false, iff_false]
        intro h
        split at h
        · split at h <;> simp at h
        · cases h
      | cons x a =>
        simp only [matchAlt, Matches, List.cons_append, List.cons.injEq]
        constructor
        · intro h
          split at h
          · rename_i hp
            split at h
            · rename_i a' r' hm
              simp only [Option.some.injEq, Prod.mk.injEq, List.cons.injEq] at h
              obtain ⟨⟨rfl, rfl⟩, rfl⟩ := h
              obtain ⟨h1, h2⟩ := (ih _ _).1 hm
              exact ⟨⟨rfl, h1⟩, hp, h2⟩
            · cases h
          · cases h
        · rintro ⟨⟨rfl, h1⟩, hp, h2⟩
          rw [if_pos hp, (ih s a).2 ⟨h1, h2⟩]

theorem mem_group {alts : List Alt} {s a r : List Char} : (a, r) ∈ group alts s ↔ s = a ++ r ∧ MatchesOne alts a := by
  unfold group MatchesOne
  rw [List.mem_filterMap]
  constructor
  · rintro ⟨alt, h, hm⟩
    obtain ⟨h1, h2⟩ := (matchAlt_iff _ _ _ _).1 hm
    exact ⟨h1, alt, h, h2⟩
  · rintro ⟨h1, alt, h, h2⟩
    exact ⟨alt, h, (matchAlt_iff _ _ _ _).2 ⟨h1, h2⟩⟩

theorem mem_lit {p : Char → Bool} {s r : List Char} : r ∈ lit p s ↔ ∃ c, s = c :: r ∧ p c = true := by
  cases s with
  | nil => simp [lit]
  | cons c s =>
    simp only [lit]
    split
    · rename_i h
      simp only [List.mem_singleton, List.cons.injEq]
      constructor
      · rintro rfl; exact ⟨c, ⟨rfl, rfl⟩, h⟩
      · rintro ⟨c', ⟨rfl, rfl⟩, _⟩; rfl
    · rename_i h
      simp only [List.not_mem_nil, List.cons.injEq, false_iff, not_exists]
      rintro c' ⟨⟨rfl, rfl⟩, h'⟩
      exact h h'

/-- The characters of a date field. -/
def fieldChar (c : Char) : Bool := isUniDigit c || c = ' '

theorem uniDigit_of_ascii {c : Char} (h : 48 ≤ c.toNat ∧ c.toNat ≤ 57) : uniDigit c = some (c.toNat - 48) := by
  unfold uniDigit unicodeZeros
  rw [List.find?_cons_of_pos (by simp; omega)]

theorem digs_iff {i j : Nat} {c : Char} : digs i j c = true ↔ 48 + i ≤ c.toNat ∧ c.toNat ≤ 48 + j := by
  simp [digs, chars]

theorem fieldChar_digs {i j : Nat} (hj : j ≤ 9) {c : Char} (h : digs i j c = true) : fieldChar c = true := by
  rw [digs_iff] at h
  simp [fieldChar, isUniDigit, uniDigit_of_ascii (c := c) (by omega)]

theorem fieldChar_uni {c : Char} (h : isUniDigit c = true) : fieldChar c = true := by simp [fieldChar, h]

theorem fieldChar_space {c : Char} (h : chars 32 32 c = true) : fieldChar c = true := by
  simp only [chars, Bool.and_eq_true, decide_eq_true_eq] at h
  have : c = ' ' := by
    apply Char.toNat_inj.1
    change c.toNat = 32
    omega
  simp [fieldChar, this]

/-- All classes of the alternatives contain only characters of date fields. -/
def Plain (alts : List Alt) : Prop := ∀ alt ∈ alts, ∀ p ∈ alt, ∀ c, p c = true → fieldChar c = true

theorem plain_fits {alts : List Alt} (h : Plain alts) {a : List Char} (ha : MatchesOne alts a) : ∀ c ∈ a, fieldChar c = true := by
  obtain ⟨alt, hm, hf⟩ := ha
  have h := h alt hm
  clear hm
  induction alt generalizing a with
  | nil =>
    cases a with
    | nil => simp
    | cons c a => exact hf.elim
  | cons p ps ih =>
    cases a with
    | nil => exact hf.elim
    | cons c a =>
      intro x hx
      rcases List.mem_cons.1 hx with rfl | hx
      · exact h p List.mem_cons_self _ hf.1
      · exact ih hf.2 (fun q hq => h q (List.mem_cons_of_mem _ hq)) x hx

theorem plain_year : Plain yearAlts := by
  simp only [Plain, yearAlts, List.mem_singleton, forall_eq, List.mem_cons, List.not_mem_nil, or_false, or_self]
  exact fun c h => fieldChar_uni h

theorem plain_month : Plain monthAlts := by
  intro alt ha p hp c hc
  simp only [monthAlts, List.mem_cons, List.not_mem_nil, or_false] at ha
  rcases ha with rfl | rfl | rfl <;> simp only [List.mem_cons, List.not_mem_nil, or_false] at hp
  · rcases hp with rfl | rfl <;> exact fieldChar_digs (by decide) hc
  · rcases hp with rfl | rfl <;> exact fieldChar_digs (by decide) hc
  · subst hp; exact fieldChar_digs (by decide) hc

theorem plain_day : Plain dayAlts := by
  intro alt ha p hp c hc
  simp only [dayAlts, List.mem_cons, List.not_mem_nil, or_false] at ha
  rcases ha with rfl | rfl | rfl | rfl | rfl <;> simp only [List.mem_cons, List.not_mem_nil, or_false] at hp
  · rcases hp with rfl | rfl <;> exact fieldChar_digs (by decide) hc
  · rcases hp with rfl | rfl
    · exact fieldChar_digs (by decide) hc
    · exact fieldChar_uni hc
  · rcases hp with rfl | rfl <;> exact fieldChar_digs (by decide) hc
  · subst hp; exact fieldChar_digs (by decide) hc
  · rcases hp with rfl | rfl
    · exact fieldChar_space hc
    · exact fieldChar_digs (by decide) hc

theorem plain_hour : Plain hourAlts := by
  intro alt ha p hp c hc
  simp only [hourAlts, List.mem_cons, List.not_mem_nil, or_false] at ha
  rcases ha with rfl | rfl | rfl <;> simp only [List.mem_cons, List.not_mem_nil, or_false] at hp
  · rcases hp with rfl | rfl <;> exact fieldChar_digs (by decide) hc
  · rcases hp with rfl | rfl
    · exact fieldChar_digs (by decide) hc
    · exact fieldChar_uni hc
  · subst hp; exact fieldChar_uni hc

theorem plain_minute : Plain minuteAlts := by
  intro alt ha p hp c hc
  simp only [minuteAlts, List.mem_cons, List.not_mem_nil, or_false] at ha
  rcases ha with rfl | rfl <;> simp only [List.mem_cons, List.not_mem_nil, or_false] at hp
  · rcases hp with rfl | rfl
    · exact fieldChar_digs (by decide) hc
    · exact fieldChar_uni hc
  · subst hp; exact fieldChar_uni hc

theorem plain_second : Plain secondAlts := by
  intro alt ha p hp c hc
  simp only [secondAlts, List.mem_cons, List.not_mem_nil, or_false] at ha
  rcases ha with rfl | rfl | rfl <;> simp only [List.mem_cons, List.not_mem_nil, or_false] at hp
  · rcases hp with rfl | rfl <;> exact fieldChar_digs (by decide) hc
  · rcases hp with rfl | rfl
    · exact fieldChar_digs (by decide) hc
    · exact fieldChar_uni hc
  · subst hp; exact fieldChar_uni hc

/-- Two ways to cut a text at the first character that is none of a field agree. -/
theorem cut_unique {P : Char → Bool} : ∀ {a a' r r' : List Char} {c c' : Char}, (∀ x ∈ a, P x = true) → (∀ x ∈ a', P x = true) →
    P c = false → P c' = false → a ++ c :: r = a' ++ c' :: r' → a = a' ∧ c = c' ∧ r = r'
  | [], [], _, _, _, _, _, _, _, _, h => by simp at h; exact ⟨rfl, h⟩
  | [], x :: a', _, _, c, c', _, h2, h3, _, h => by
    simp at h; rw [h.1, h2 x List.mem_cons_self] at h3; cases h3
  | x :: a, [], _, _, c, c', h1, _, _, h4, h => by
    simp at h; rw [← h.1, h1 x List.mem_cons_self] at h4; cases h4
  | x :: a, y :: a', _, _, c, c', h1, h2, h3, h4, h => by
    simp only [List.cons_append, List.cons.injEq] at h
    obtain ⟨h5, h6, h7⟩ := cut_unique (fun z hz => h1 z (List.mem_cons_of_mem _ hz))
      (fun z hz => h2 z (List.mem_cons_of_mem _ hz)) h3 h4 h.2
    exact ⟨by rw [h.1, h5], h6, h7⟩

theorem head_flatMap {α β : Type} {l : List α} {g : α → List β} {e : α} {x : β} (he : e ∈ l)
    (hu : ∀ e' ∈ l, g e' ≠ [] → e' = e) (hx : (g e).head? = some x) : (l.flatMap g).head? = some x := by
  induction l with
  | nil => cases he
  | cons a l ih =>
    rw [List.flatMap_cons]
    by_cases hg : g a = []
    · rw [hg, List.nil_append]
      have : e ≠ a := by rintro rfl; rw [hg] at hx; cases hx
      exact ih ((List.mem_cons.1 he).resolve_left this) fun e' h => hu e' (List.mem_cons_of_mem _ h)
    · have := hu a List.mem_cons_self hg
      subst this
      rw [List.head?_append, hx]; rfl

/-- A literal that ends a field. -/
def EndsField (p : Char → Bool) : Prop := ∀ c, p c = true → fieldChar c = false

theorem ends_dash : EndsField (· = '-') := by intro c h; simp at h; subst h; decide +kernel
theorem ends_colon : EndsField (· = ':') := by intro c h; simp at h; subst h; decide +kernel
theorem ends_dot : EndsField (· = '.') := by intro c h; simp at h; subst h; decide +kernel
theorem ends_t : EndsField (fun c => c = 'T' || c = 't') := by
  intro c h; simp at h; rcases h with rfl | rfl <;> decide +kernel

/-- A field and the literal after it are read in one way only. -/
theorem head_group {α : Type} {alts : List Alt} (hp : Plain alts) {p : Char → Bool} (he : EndsField p) {a r : List Char} {c : Char}
    (ha : MatchesOne alts a) (hc : p c = true) {g : List Char × List Char → List α} {G : List Char → List Char → List α}
    (hg : ∀ a s, g (a, s) = (lit p s).flatMap fun s => G a s) {x : α} (hx : (G a r).head? = some x) :
    ((group alts (a ++ c :: r)).flatMap g).head? = some x := by
  refine head_flatMap (e := (a, c :: r)) (mem_group.2 ⟨rfl, ha⟩) ?_ ?_
  · rintro ⟨a', s'⟩ hm hn
    obtain ⟨h1, h2⟩ := mem_group.1 hm
    rw [hg] at hn
    cases s' with
    | nil => simp [lit] at hn
    | cons c' r' =>
      have hc' : p c' = true := by
        cases h : p c' with
        | true => rfl
        | false => simp [lit, h] at hn
      obtain ⟨rfl, rfl, rfl⟩ := cut_unique (plain_fits hp ha) (plain_fits hp h2) (he c hc) (he c' hc') h1
      rfl
  · rw [hg]
    refine head_flatMap (e := r) (mem_lit.2 ⟨c, rfl, hc⟩) ?_ hx
    intro e h _
    obtain ⟨_, h, _⟩ := mem_lit.1 h
    cases h; rfl

/-! ### Dates -/

theorem mem_scanDate {s r : List Char} {x : Date} : (x, r) ∈ scanDate s ↔ ∃ y m d, s = y ++ '-' :: (m ++ '-' :: (d ++ r)) ∧
    MatchesOne yearAlts y ∧ MatchesOne monthAlts m ∧ MatchesOne dayAlts d ∧ x = ⟨groupInt y, groupInt m, groupInt d⟩ := by
  unfold scanDate
  simp only [List.mem_flatMap, List.mem_map, Prod.exists, mem_group, mem_lit, Prod.mk.injEq]
  constructor
  · rintro ⟨y, s1, ⟨rfl, hy⟩, s2, ⟨c, rfl, hc⟩, m, s3, ⟨rfl, hm⟩, s4, ⟨c', rfl, hc'⟩, d, s5, ⟨rfl, hd⟩, rfl, rfl⟩
    simp at hc hc'
    subst hc hc'
    exact ⟨y, m, d, rfl, hy, hm, hd, rfl⟩
  · rintro ⟨y, m, d, rfl, hy, hm, hd, rfl⟩
    exact ⟨y, _, ⟨rfl, hy⟩, _, ⟨'-', rfl, by simp⟩, m, _, ⟨rfl, hm⟩, _, ⟨'-', rfl, by simp⟩, d, r, ⟨rfl, hd⟩, rfl, rfl⟩

theorem fitsOne_length {alts : List Alt} {a : List Char} (h : MatchesOne alts a) : ∃ alt ∈ alts, alt.length = a.length := by
  obtain ⟨alt, hm, hf⟩ := h
  refine ⟨alt, hm, ?_⟩
  clear hm
  induction alt generalizing a with
  | nil => cases a with
    | nil => rfl
    | cons => exact hf.elim
  | cons p ps ih => cases a with
    | nil => exact hf.elim
    | cons c a => simp [ih hf.2]

/-- `%d` at the end of the text takes all of it. -/
theorem head_day {d : List Char} (h : MatchesOne dayAlts d) : (group dayAlts d).head? = some (d, []) := by
  obtain ⟨alt, hm, hf⟩ := h
  have hall : ∀ {alt'}, alt'.length = d.length → ∀ {a r}, matchAlt alt' d = some (a, r) → a = d ∧ r = [] := by
    intro alt' hl a r hm
    obtain ⟨h1, h2⟩ := (matchAlt_iff _ _ _ _).1 hm
    obtain ⟨alt2, h3, h4⟩ := fitsOne_length (alts := [alt']) ⟨alt', by simp, h2⟩
    simp only [List.mem_singleton] at h3
    subst h3
    have : r = [] := by
      have := congrArg List.length h1
      rw [List.length_append] at this
      exact List.length_eq_zero_iff.1 (by omega)
    subst this
    rw [List.append_nil] at h1
    exact ⟨h1.symm, rfl⟩
  have hmine := (matchAlt_iff alt d d []).2 ⟨by simp, hf⟩
  match d, hf with
  | [], hf =>
    simp only [dayAlts, List.mem_cons, List.not_mem_nil, or_false] at hm
    rcases hm with rfl | rfl | rfl | rfl | rfl <;> exact hf.elim
  | [c], hf =>
    simp only [dayAlts, List.mem_cons, List.not_mem_nil, or_false] at hm
    rcases hm with rfl | rfl | rfl | rfl | rfl
    · exact hf.2.elim
    · exact hf.2.elim
    · exact hf.2.elim
    · have hn : ∀ p q : Char → Bool, matchAlt [p, q] [c] = none := by
        intro p q; simp [matchAlt]
      simp only [group, dayAlts, List.filterMap_cons, hn, hmine]
      rfl
    · exact hf.2.elim
  | [c, e], hf =>
    have two : ∀ p q : Char → Bool, matchAlt [p, q] [c, e] = if p c = true ∧ q e = true then some ([c, e], []) else none := by
      intro p q
      simp only [matchAlt]
      by_cases h1 : p c = true <;> by_cases h2 : q e = true <;> simp [h1, h2]
    have one : ∀ p : Char → Bool, matchAlt [p] [c, e] = if p c = true then some ([c], [e]) else none := by
      intro p
      simp only [matchAlt]
    simp only [dayAlts, List.mem_cons, List.not_mem_nil, or_false] at hm
    simp only [group, dayAlts, List.filterMap_cons, two, one]
    rcases hm with rfl | rfl | rfl | rfl | rfl
    · rw [if_pos ⟨hf.1, hf.2.1⟩]; rfl
    · rw [if_pos (c := digs 1 2 c = true ∧ isUniDigit e = true) ⟨hf.1, hf.2.1⟩]
      by_cases h1 : digs 3 3 c = true ∧ digs 0 1 e = true
      · rw [if_pos h1]; rfl
      · rw [if_neg h1]; rfl
    · rw [if_pos (c := digs 0 0 c = true ∧ digs 1 9 e = true) ⟨hf.1, hf.2.1⟩]
      by_cases h1 : digs 3 3 c = true ∧ digs 0 1 e = true
      · rw [if_pos h1]; rfl
      · rw [if_neg h1]
        by_cases h2 : digs 1 2 c = true ∧ isUniDigit e = true
        · rw [if_pos h2]; rfl
        · rw [if_neg h2]; rfl
    · exact hf.2.elim
    · have hsp : c.toNat = 32 := by
        have := hf.1
        simp only [chars, Bool.and_eq_true, decide_eq_true_eq] at this
        omega
      have hno : ∀ i j, digs i j c = false := by
        intro i j
        cases h : digs i j c with
        | false => rfl
        | true => rw [digs_iff] at h; omega
      simp only [hno, Bool.false_eq_true, false_and, if_false]
      rw [if_pos ⟨hf.1, hf.2.1⟩]; rfl
  | c :: e :: f :: r, hf =>
    simp only [dayAlts, List.mem_cons, List.not_mem_nil, or_false] at hm
    rcases hm with rfl | rfl | rfl | rfl | rfl
    · exact hf.2.2.elim
    · exact hf.2.2.elim
    · exact hf.2.2.elim
    · exact hf.2.elim
    · exact hf.2.2.elim

/-- **strptime** of a date: which texts are accepted, and what they give. -/
theorem parseDate_iff (s : List Char) (x : Date) : parseDate s = .ok x ↔
    ∃ y m d, s = y ++ '-' :: (m ++ '-' :: d) ∧ MatchesOne yearAlts y ∧ MatchesOne monthAlts m ∧ MatchesOne dayAlts d ∧
      x = ⟨groupInt y, groupInt m, groupInt d⟩ ∧ x.valid = true := by
  constructor
  · intro h
    unfold parseDate at h
    split at h
    · rename_i t ht
      split at h
      · rename_i hv
        cases h
        have hm := List.mem_of_head? ht
        obtain ⟨y, m, d, h1, h2, h3, h4, h5⟩ := mem_scanDate.1 hm
        exact ⟨y, m, d, by simpa using h1, h2, h3, h4, h5, hv⟩
      · cases h
    · cases h
  · rintro ⟨y, m, d, rfl, hy, hm, hd, rfl, hv⟩
    have : (scanDate (y ++ '-' :: (m ++ '-' :: d))).head? = some (⟨groupInt y, groupInt m, groupInt d⟩, []) := by
      unfold scanDate
      refine head_group (c := '-') plain_year ends_dash hy (decide_eq_true rfl) (fun _ _ => rfl) ?_
      refine head_group (c := '-') plain_month ends_dash hm (decide_eq_true rfl) (fun _ _ => rfl) ?_
      rw [List.head?_map, head_day hd]; rfl
    unfold parseDate
    rw [this]
    simp [hv]

/-! ### Dates with a time -/

theorem matches_replicate {n : Nat} {p : Char → Bool} {a : List Char} : Matches (List.replicate n p) a ↔ a.length = n ∧ ∀ c ∈ a, p c = true := by
  induction n generalizing a with
  | zero => cases a <;> simp [Matches]
  | succ n ih =>
    cases a with
    | nil => simp [Matches, List.replicate_succ]
    | cons c a => simp [Matches, List.replicate_succ, ih, and_left_comm]

theorem matches_fraction {a : List Char} : MatchesOne fractionAlts a ↔ 1 ≤ a.length ∧ a.length ≤ 6 ∧ ∀ c ∈ a, digs 0 9 c = true := by
  unfold MatchesOne fractionAlts
  constructor
  · rintro ⟨alt, h, hf⟩
    obtain ⟨n, hn, rfl⟩ := List.mem_map.1 h
    obtain ⟨h1, h2⟩ := matches_replicate.1 hf
    simp only [List.mem_cons, List.not_mem_nil, or_false] at hn
    exact ⟨by omega, by omega, h2⟩
  · rintro ⟨h1, h2, h3⟩
    refine ⟨_, List.mem_map.2 ⟨a.length, ?_, rfl⟩, matches_replicate.2 ⟨rfl, h3⟩⟩
    simp only [List.mem_cons, List.not_mem_nil, or_false]
    omega

theorem head_fraction {f : List Char} (h : MatchesOne fractionAlts f) : (group fractionAlts f).head? = some (f, []) := by
  obtain ⟨h1, h2, h3⟩ := matches_fraction.1 h
  have hlong : ∀ n, f.length < n → matchAlt (List.replicate n (digs 0 9)) f = none := by
    intro n hn
    cases hm : matchAlt (List.replicate n (digs 0 9)) f with
    | none => rfl
    | some x =>
      obtain ⟨a, r⟩ := x
      obtain ⟨h4, h5⟩ := (matchAlt_iff _ _ _ _).1 hm
      have h6 := (matches_replicate.1 h5).1
      have := congrArg List.length h4
      rw [List.length_append] at this
      omega
  have hmine := (matchAlt_iff (List.replicate f.length (digs 0 9)) f f []).2 ⟨by simp, matches_replicate.2 ⟨rfl, h3⟩⟩
  have hn : f.length = 1 ∨ f.length = 2 ∨ f.length = 3 ∨ f.length = 4 ∨ f.length = 5 ∨ f.length = 6 := by omega
  simp only [group, fractionAlts, List.map_cons, List.map_nil, List.filterMap_cons]
  rcases hn with hn | hn | hn | hn | hn | hn <;> rw [hn] at hmine
  · rw [hlong 6 (by omega), hlong 5 (by omega), hlong 4 (by omega), hlong 3 (by omega), hlong 2 (by omega), hmine]; rfl
  · rw [hlong 6 (by omega), hlong 5 (by omega), hlong 4 (by omega), hlong 3 (by omega), hmine]; rfl
  · rw [hlong 6 (by omega), hlong 5 (by omega), hlong 4 (by omega), hmine]; rfl
  · rw [hlong 6 (by omega), hlong 5 (by omega), hmine]; rfl
  · rw [hlong 6 (by omega), hmine]; rfl
  · rw [hmine]; rfl

theorem mem_scanDateTime {s r : List Char} {x : DateTime} : (x, r) ∈ scanDateTime s → ∃ y m d T h mi se f,
    s = y ++ '-' :: (m ++ '-' :: (d ++ T :: (h ++ ':' :: (mi ++ ':' :: (se ++ '.' :: (f ++ r)))))) ∧ (T = 'T' ∨ T = 't') ∧
    MatchesOne yearAlts y ∧ MatchesOne monthAlts m ∧ MatchesOne dayAlts d ∧ MatchesOne hourAlts h ∧ MatchesOne minuteAlts mi ∧
    MatchesOne secondAlts se ∧ MatchesOne fractionAlts f ∧
    x = ⟨groupInt y, groupInt m, groupInt d, groupInt h, groupInt mi, groupInt se, groupInt f * 10 ^ (6 - f.length), none, false⟩ := by
  unfold scanDateTime
  simp only [List.mem_flatMap, List.mem_map, Prod.exists, mem_group, mem_lit, mem_scanDate, Prod.mk.injEq]
  rintro ⟨D, s1, ⟨y, m, d, rfl, hy, hm, hd, rfl⟩, s2, ⟨T, rfl, hT⟩, h, s3, ⟨rfl, hh⟩, s4, ⟨c, rfl, hc⟩, mi, s5, ⟨rfl, hmi⟩,
    s6, ⟨c', rfl, hc'⟩, se, s7, ⟨rfl, hse⟩, s8, ⟨c'', rfl, hc''⟩, f, s9, ⟨rfl, hf⟩, rfl, rfl⟩
  simp at hT hc hc' hc''
  subst hc hc' hc''
  exact ⟨y, m, d, T, h, mi, se, f, rfl, hT, hy, hm, hd, hh, hmi, hse, hf, rfl⟩

/-- **strptime** of a date with a time: which texts are accepted, and what they give. -/
theorem parseDateTime_iff (s : List Char) (x : DateTime) : parseDateTime s = .ok x ↔ ∃ y m d T h mi se f,
    s = y ++ '-' :: (m ++ '-' :: (d ++ T :: (h ++ ':' :: (mi ++ ':' :: (se ++ '.' :: f))))) ∧ (T = 'T' ∨ T = 't') ∧
    MatchesOne yearAlts y ∧ MatchesOne monthAlts m ∧ MatchesOne dayAlts d ∧ MatchesOne hourAlts h ∧ MatchesOne minuteAlts mi ∧
    MatchesOne secondAlts se ∧ MatchesOne fractionAlts f ∧
    x = ⟨groupInt y, groupInt m, groupInt d, groupInt h, groupInt mi, groupInt se, groupInt f * 10 ^ (6 - f.length), none, false⟩ ∧
    x.valid = true := by
  constructor
  · intro h
    unfold parseDateTime at h
    split at h
    · rename_i t ht
      split at h
      · rename_i hv
        cases h
        obtain ⟨y, m, d, T, h, mi, se, f, h1, hT, hy, hm, hd, hh, hmi, hse, hf, hx⟩ := mem_scanDateTime (List.mem_of_head? ht)
        exact ⟨y, m, d, T, h, mi, se, f, by simpa using h1, hT, hy, hm, hd, hh, hmi, hse, hf, hx, hv⟩
      · cases h
    · cases h
  · rintro ⟨y, m, d, T, h, mi, se, f, rfl, hT, hy, hm, hd, hh, hmi, hse, hf, rfl, hv⟩
    have hT' : (fun c => c = 'T' || c = 't' : Char → Bool) T = true := by simpa using hT
    have : (scanDateTime (y ++ '-' :: (m ++ '-' :: (d ++ T :: (h ++ ':' :: (mi ++ ':' :: (se ++ '.' :: f))))))).head? =
        some (⟨groupInt y, groupInt m, groupInt d, groupInt h, groupInt mi, groupInt se, groupInt f * 10 ^ (6 - f.length), none, false⟩, []) := by
      unfold scanDateTime
      refine head_flatMap (e := (⟨groupInt y, groupInt m, groupInt d⟩, T :: (h ++ ':' :: (mi ++ ':' :: (se ++ '.' :: f)))))
        (mem_scanDate.2 ⟨y, m, d, rfl, hy, hm, hd, rfl⟩) ?_ ?_
      · rintro ⟨D, s'⟩ hmem hg
        obtain ⟨y', m', d', h1, hy', hm', hd', rfl⟩ := mem_scanDate.1 hmem
        cases s' with
        | nil => simp [lit] at hg
        | cons c' r' =>
          have hc' : (fun c => c = 'T' || c = 't' : Char → Bool) c' = true := by
            cases h : (fun c => c = 'T' || c = 't' : Char → Bool) c' with
            | true => rfl
            | false => simp only [lit, h] at hg; exact absurd rfl hg
          have hdash : fieldChar '-' = false := by decide +kernel
          obtain ⟨rfl, _, h2⟩ := cut_unique (plain_fits plain_year hy) (plain_fits plain_year hy') hdash hdash h1
          obtain ⟨rfl, _, h3⟩ := cut_unique (plain_fits plain_month hm) (plain_fits plain_month hm') hdash hdash h2
          obtain ⟨rfl, rfl, rfl⟩ := cut_unique (plain_fits plain_day hd) (plain_fits plain_day hd') (ends_t _ hT') (ends_t _ hc') h3
          rfl
      · refine head_flatMap (e := h ++ ':' :: (mi ++ ':' :: (se ++ '.' :: f))) (mem_lit.2 ⟨T, rfl, hT'⟩) ?_ ?_
        · intro e h _
          obtain ⟨_, h, _⟩ := mem_lit.1 h
          cases h; rfl
        · refine head_group (c := ':') plain_hour ends_colon hh (decide_eq_true rfl) (fun _ _ => rfl) ?_
          refine head_group (c := ':') plain_minute ends_colon hmi (decide_eq_true rfl) (fun _ _ => rfl) ?_
          refine head_group (c := '.') plain_second ends_dot hse (decide_eq_true rfl) (fun _ _ => rfl) ?_
          rw [List.head?_map, head_fraction hf]; rfl
    unfold parseDateTime
    rw [this]
    simp [hv]

/-! ### Zero-padded numbers -/

theorem digit_toNat (n : Nat) : (digit n).toNat = 48 + n % 10 := by
  have h : ∀ m, m < 10 → (Char.ofNat (48 + m)).toNat = 48 + m := by decide
  exact h _ (Nat.mod_lt _ (by omega))

theorem digit_uni (n : Nat) : isUniDigit (digit n) = true ∧ uniDigit (digit n) = some (n % 10) := by
  have h := digit_toNat n
  have := uniDigit_of_ascii (c := digit n) (by omega)
  rw [isUniDigit, this]
  exact ⟨rfl, by rw [h]; congr 1; omega⟩

theorem groupInt_snoc (s : List Char) (c : Char) : groupInt (s ++ [c]) = 10 * groupInt s + (uniDigit c).getD 0 := by
  simp [groupInt]

theorem groupInt_padDec (w n : Nat) (h : n < 10 ^ w) : groupInt (padDec w n) = n := by
  induction w generalizing n with
  | zero => simp at h; subst h; rfl
  | succ w ih =>
    have h' : n / 10 < 10 ^ w := by rw [Nat.pow_succ] at h; omega
    rw [padDec, groupInt_snoc, ih _ h', (digit_uni n).2]
    simp only [Option.getD_some]
    omega

theorem padDec_two (n : Nat) : padDec 2 n = [digit (n / 10), digit n] := rfl

theorem digs_digit {i j n : Nat} : digs i j (digit n) = true ↔ i ≤ n % 10 ∧ n % 10 ≤ j := by
  rw [digs_iff, digit_toNat]; omega

theorem fits_year (y : Nat) : MatchesOne yearAlts (padDec 4 y) := by
  refine ⟨_, List.mem_singleton.2 rfl, ?_⟩
  change Matches _ [digit _, digit _, digit _, digit _]
  exact ⟨(digit_uni _).1, (digit_uni _).1, (digit_uni _).1, (digit_uni _).1, trivial⟩

theorem fits_month {n : Nat} (h : 1 ≤ n ∧ n ≤ 12) : MatchesOne monthAlts (padDec 2 n) := by
  rw [padDec_two]
  by_cases h1 : n < 10
  · exact ⟨[digs 0 0, digs 1 9], by simp [monthAlts], digs_digit.2 (by omega), digs_digit.2 (by omega), trivial⟩
  · exact ⟨[digs 1 1, digs 0 2], by simp [monthAlts], digs_digit.2 (by omega), digs_digit.2 (by omega), trivial⟩

theorem fits_day {n : Nat} (h : 1 ≤ n ∧ n ≤ 31) : MatchesOne dayAlts (padDec 2 n) := by
  rw [padDec_two]
  by_cases h1 : n < 10
  · exact ⟨[digs 0 0, digs 1 9], by simp [dayAlts], digs_digit.2 (by omega), digs_digit.2 (by omega), trivial⟩
  by_cases h2 : n < 30
  · exact ⟨[digs 1 2, isUniDigit], by simp [dayAlts], digs_digit.2 (by omega), (digit_uni _).1, trivial⟩
  · exact ⟨[digs 3 3, digs 0 1], by simp [dayAlts], digs_digit.2 (by omega), digs_digit.2 (by omega), trivial⟩

theorem fits_hour {n : Nat} (h : n < 24) : MatchesOne hourAlts (padDec 2 n) := by
  rw [padDec_two]
  by_cases h1 : n < 20
  · exact ⟨[digs 0 1, isUniDigit], by simp [hourAlts], digs_digit.2 (by omega), (digit_uni _).1, trivial⟩
  · exact ⟨[digs 2 2, digs 0 3], by simp [hourAlts], digs_digit.2 (by omega), digs_digit.2 (by omega), trivial⟩

theorem fits_minute {n : Nat} (h : n < 60) : MatchesOne minuteAlts (padDec 2 n) := by
  rw [padDec_two]
  exact ⟨[digs 0 5, isUniDigit], by simp [minuteAlts], digs_digit.2 (by omega), (digit_uni _).1, trivial⟩

theorem fits_second {n : Nat} (h : n < 60) : MatchesOne secondAlts (padDec 2 n) := by
  rw [padDec_two]
  exact ⟨[digs 0 5, isUniDigit], by simp [secondAlts], digs_digit.2 (by omega), (digit_uni _).1, trivial⟩

theorem padDec_digits (w n : Nat) : ∀ c ∈ padDec w n, digs 0 9 c = true := by
  induction w generalizing n with
  | zero => simp [padDec]
  | succ w ih =>
    intro c hc
    rw [padDec, List.mem_append] at hc
    rcases hc with hc | hc
    · exact ih _ c hc
    · simp at hc; subst hc; exact digs_digit.2 (by omega)

theorem fits_micro (n : Nat) : MatchesOne fractionAlts (padDec 6 n) :=
  matches_fraction.2 ⟨by rw [padDec_length]; omega, by rw [padDec_length]; omega, padDec_digits 6 n⟩

theorem fmtYear_eq {pad : Bool} {y : Nat} (h : 1000 ≤ y ∧ y ≤ 9999 ∨ pad = true) : fmtYear pad y = padDec 4 y := by
  unfold fmtYear
  cases pad with
  | true => rfl
  | false =>
    simp only [Bool.false_eq_true, or_false, if_false] at h ⊢
    unfold natDec
    rw [if_neg (by omega), if_neg (by omega), if_neg (by omega), if_pos (by omega)]

theorem daysInMonth_le (y m : Nat) : daysInMonth y m ≤ 31 := by
  unfold daysInMonth; repeat' split
  all_goals omega

theorem Date.valid_iff (d : Date) : d.valid = true ↔ 1 ≤ d.year ∧ d.year ≤ 9999 ∧ 1 ≤ d.month ∧ d.month ≤ 12 ∧
    1 ≤ d.day ∧ d.day ≤ daysInMonth d.year d.month := by
  simp [Date.valid, and_assoc]

theorem DateTime.valid_iff (t : DateTime) : t.valid = true ↔ Date.valid ⟨t.year, t.month, t.day⟩ = true ∧
    t.hour < 24 ∧ t.minute < 60 ∧ t.second < 60 ∧ t.micro < 1000000 := by
  simp [DateTime.valid, and_assoc]

theorem parseDate_fmt {pad : Bool} {d : Date} (hv : d.valid = true) (hy : 1000 ≤ d.year ∨ pad = true) :
    parseDate (fmtDate pad d.year d.month d.day) = .ok d := by
  have h := (Date.valid_iff d).1 hv
  have hd := daysInMonth_le d.year d.month
  have hy' : fmtYear pad d.year = padDec 4 d.year := fmtYear_eq (by rcases hy with h | h; exact Or.inl (by omega); exact Or.inr h)
  refine (parseDate_iff _ _).2 ⟨padDec 4 d.year, padDec 2 d.month, padDec 2 d.day, ?_, fits_year _, fits_month (by omega),
    fits_day (by omega), ?_, hv⟩
  · simp [fmtDate, hy']
  · rw [groupInt_padDec 4 _ (by omega), groupInt_padDec 2 _ (by omega), groupInt_padDec 2 _ (by omega)]

theorem parseDateTime_fmt {pad : Bool} {t : DateTime} (hv : t.valid = true) (hy : 1000 ≤ t.year ∨ pad = true) :
    parseDateTime (fmtDateTime pad t) = .ok { t with tz := none, fold := false } := by
  have h' := (DateTime.valid_iff t).1 hv
  have h := (Date.valid_iff _).1 h'.1
  simp only at h
  have hd := daysInMonth_le t.year t.month
  have hy' : fmtYear pad t.year = padDec 4 t.year := fmtYear_eq (by rcases hy with h | h; exact Or.inl (by omega); exact Or.inr h)
  refine (parseDateTime_iff _ _).2 ⟨padDec 4 t.year, padDec 2 t.month, padDec 2 t.day, 'T', padDec 2 t.hour, padDec 2 t.minute,
    padDec 2 t.second, padDec 6 t.micro, ?_, .inl rfl, fits_year _, fits_month (by omega), fits_day (by omega), fits_hour h'.2.1,
    fits_minute h'.2.2.1, fits_second h'.2.2.2.1, fits_micro _, ?_, hv⟩
  · simp [fmtDateTime, fmtDate, hy']
  · rw [groupInt_padDec 4 _ (by omega), groupInt_padDec 2 _ (by omega), groupInt_padDec 2 _ (by omega), groupInt_padDec 2 _ (by omega),
      groupInt_padDec 2 _ (by omega), groupInt_padDec 2 _ (by omega), groupInt_padDec 6 _ (by omega), padDec_length]
    simp

theorem natDec_short {y : Nat} (hy : y < 1000) : (natDec y).length < 4 := by
  unfold natDec; repeat' split
  all_goals simp [padDec_length]
  all_goals omega

theorem natDec_digits (y : Nat) : ∀ c ∈ natDec y, fieldChar c = true := by
  intro c hc
  have : digs 0 9 c = true := by
    unfold natDec at hc
    split at hc
    · simp at hc; subst hc; exact digs_digit.2 (by omega)
    · repeat' split at hc
      all_goals exact padDec_digits _ _ c hc
  exact fieldChar_digs (by decide) this

/-- Without padding a year below 1000 is not read back. -/
theorem year_short {y : Nat} (hy : y < 1000) {Y r r' : List Char} (hY : MatchesOne yearAlts Y)
    (h : natDec y ++ '-' :: r = Y ++ '-' :: r') : False := by
  have hdash : fieldChar '-' = false := by decide +kernel
  obtain ⟨h1, _⟩ := cut_unique (natDec_digits y) (plain_fits plain_year hY) hdash hdash h
  obtain ⟨alt, h2, h3⟩ := fitsOne_length hY
  have h4 := natDec_short hy
  simp only [yearAlts, List.mem_singleton] at h2
  rw [h1, ← h3, h2] at h4
  simp at h4

theorem parseDate_error {s : List Char} (h : ∀ x, parseDate s ≠ .ok x) : parseDate s = .error .valueError := by
  cases hp : parseDate s with
  | ok x => exact absurd hp (h x)
  | error e =>
    unfold parseDate at hp
    split at hp
    · split at hp <;> cases hp; rfl
    · cases hp; rfl

theorem parseDateTime_error {s : List Char} (h : ∀ x, parseDateTime s ≠ .ok x) : parseDateTime s = .error .valueError := by
  cases hp : parseDateTime s with
  | ok x => exact absurd hp (h x)
  | error e =>
    unfold parseDateTime at hp
    split at hp
    · split at hp <;> cases hp; rfl
    · cases hp; rfl

theorem parseDate_short {y : Nat} (hy : y < 1000) (m d : Nat) :
    parseDate (fmtDate false y m d) = .error .valueError := by
  apply parseDate_error
  intro x hx
  obtain ⟨Y, _, _, h1, h2, _⟩ := (parseDate_iff _ _).1 hx
  simp only [fmtDate, fmtYear, Bool.false_eq_true, if_false, List.append_assoc, List.cons_append] at h1
  exact year_short hy h2 h1

theorem parseDateTime_short {t : DateTime} (hy : t.year < 1000) :
    parseDateTime (fmtDateTime false t) = .error .valueError := by
  apply parseDateTime_error
  intro x hx
  obtain ⟨Y, _, _, _, _, _, _, _, h1, _, h2, _⟩ := (parseDateTime_iff _ _).1 hx
  simp only [fmtDateTime, fmtDate, fmtYear, Bool.false_eq_true, if_false, List.append_assoc, List.cons_append] at h1
  exact year_short hy h2 h1

end Verif
