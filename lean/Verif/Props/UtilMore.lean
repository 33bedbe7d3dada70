import Verif.Props.Util
/-!
# C64, C81 for output of any form

What `int` and the splitting of lines do with any text, not only with the lines that `ps` and `netstat` are known to print.
-/
namespace Verif

/-- The white space of Python, character by character. -/
def whiteSpace : List Nat :=
  [9, 10, 11, 12, 13, 28, 29, 30, 31, 32, 133, 160, 5760, 8192, 8193, 8194, 8195, 8196, 8197, 8198, 8199, 8200, 8201, 8202, 8232, 8233, 8239, 8287, 12288]

/-- Only white space. -/
def AllSpace (b : List Char) : Prop := ∀ c ∈ b, c.toNat ∈ whiteSpace

/-- Groups of digits, none of them empty, at least one. -/
def DigitGroups (gs : List (List Char)) : Prop := gs ≠ [] ∧ ∀ g ∈ gs, g ≠ [] ∧ ∀ c ∈ g, isUniDigit c = true

/-- The number the digits are. -/
def decimalValue (d : List Char) : Nat := d.foldl (fun n c => 10 * n + (uniDigit c).getD 0) 0

/-- The texts `int` accepts, and their values: white space, a sign or none, at most 4300 digits in groups separated by single underscores, white space. -/
def IntText (s : List Char) (i : Int) : Prop :=
  ∃ b gs b', AllSpace b ∧ AllSpace b' ∧ DigitGroups gs ∧ gs.flatten.length ≤ 4300 ∧
    ((s = b ++ (['_'].intercalate gs ++ b') ∧ i = decimalValue gs.flatten) ∨ (s = b ++ ('+' :: (['_'].intercalate gs ++ b')) ∧ i = decimalValue gs.flatten) ∨
     (s = b ++ ('-' :: (['_'].intercalate gs ++ b')) ∧ i = -(decimalValue gs.flatten : Int)))

theorem isPySpace_iff (c : Char) : isPySpace c = true ↔ c.toNat ∈ whiteSpace := by
  simp only [isPySpace, whiteSpace, decide_eq_true_eq, List.mem_cons, List.not_mem_nil, or_false]
  omega

theorem underscore_no_digit : isUniDigit '_' = false := by decide +kernel

theorem intDigits_groups (r d : List Char) : intDigits r = some d ↔ ∃ gs, DigitGroups gs ∧ r = ['_'].intercalate gs ∧ d = gs.flatten := by
  constructor
  · intro h
    induction r using intDigits.induct generalizing d with
    | case1 => cases h
    | case2 c hc =>
      rw [intDigits, if_pos hc] at h
      cases h
      exact ⟨[[c]], ⟨by simp, by simpa using hc⟩, by simp [List.intercalate], by simp⟩
    | case3 c hc => rw [intDigits, if_neg hc] at h; cases h
    | case4 c r hc ih =>
      rw [intDigits, if_pos hc] at h
      obtain ⟨d', hd, rfl⟩ := Option.map_eq_some_iff.1 h
      obtain ⟨gs, ⟨hne, hg⟩, hr, hd'⟩ := ih d' hd
      refine ⟨[c] :: gs, ⟨by simp, ?_⟩, ?_, by simp [hd']⟩
      · intro g hm
        rcases List.mem_cons.1 hm with rfl | hm
        · simpa using hc
        · exact hg g hm
      · cases gs with
        | nil => exact absurd rfl hne
        | cons g gs => rw [hr]; simp [List.intercalate, List.intersperse]
    | case5 c r hc => rw [intDigits, if_neg hc] at h; cases h
    | case6 c r h1 h2 hc ih =>
      rw [intDigits, if_pos hc] at h
      · obtain ⟨d', hd, rfl⟩ := Option.map_eq_some_iff.1 h
        obtain ⟨gs, ⟨hne, hg⟩, hr, hd'⟩ := ih d' hd
        cases gs with
        | nil => exact absurd rfl hne
        | cons g gs =>
          refine ⟨(c :: g) :: gs, ⟨by simp, ?_⟩, ?_, by simp [hd']⟩
          · intro g' hm
            rcases List.mem_cons.1 hm with rfl | hm
            · refine ⟨by simp, fun x hx => ?_⟩
              rcases List.mem_cons.1 hx with rfl | hx
              · exact hc
              · exact (hg g (by simp)).2 x hx
            · exact hg g' (by simp [hm])
          · rw [hr]
            cases gs <;> simp [List.intercalate, List.intersperse]
      · exact h1
      · exact h2
    | case7 c r h1 h2 hc => rw [intDigits, if_neg hc] at h; cases h; exact h1; exact h2
  · rintro ⟨gs, ⟨hne, hg⟩, rfl, rfl⟩
    induction gs with
    | nil => exact absurd rfl hne
    | cons g gs ih =>
      have hg1 := hg g (by simp)
      cases gs with
      | nil =>
        simp only [List.intercalate, List.intersperse, List.flatten_cons, List.flatten_nil, List.append_nil]
        refine intDigits_all g hg1.1 fun c hc => ⟨hg1.2 c hc, ?_⟩
        rintro rfl
        exact absurd (hg1.2 '_' hc) (by simp [underscore_no_digit])
      | cons g' gs =>
        have ih := ih (by simp) fun x hx => hg x (by simp [hx])
        have e : ['_'].intercalate (g :: g' :: gs) = g ++ '_' :: ['_'].intercalate (g' :: gs) := by simp [List.intercalate, List.intersperse]
        rw [e]
        generalize ['_'].intercalate (g' :: gs) = R at ih
        have hfl : (g :: g' :: gs).flatten = g ++ (g' :: gs).flatten := by simp
        rw [hfl]
        generalize (g' :: gs).flatten = D at ih
        obtain ⟨hgne, hgd⟩ := hg1
        clear hg hne e hfl
        induction g with
        | nil => exact absurd rfl hgne
        | cons c g ihg =>
          cases g with
          | nil => simp [intDigits, hgd c (by simp), ih]
          | cons c' g =>
            have hc' : c' ≠ '_' := by
              rintro rfl
              exact absurd (hgd '_' (by simp)) (by simp [underscore_no_digit])
            have h2 := ihg (by simp) fun x hx => hgd x (by simp [hx])
            have hc := hgd c (by simp)
            simp only [List.cons_append] at h2 ⊢
            rw [intDigits.eq_4 _ _ (by simp) (by intro r h; cases h; exact hc' rfl), if_pos hc, h2]
            rfl

theorem space_no_digit (c : Char) (h : isPySpace c = true) : isUniDigit c = false ∧ c ≠ '+' ∧ c ≠ '-' := by
  have hall : ∀ n ∈ whiteSpace, isUniDigit (Char.ofNat n) = false ∧ Char.ofNat n ≠ '+' ∧ Char.ofNat n ≠ '-' := by decide +kernel
  have := hall c.toNat ((isPySpace_iff c).1 h)
  rwa [Char.ofNat_toNat] at this

theorem takeWhile_mem {p : Char → Bool} {l : List Char} {c : Char} (h : c ∈ l.takeWhile p) : p c = true := by
  induction l with
  | nil => cases h
  | cons x l ih =>
    rw [List.takeWhile_cons] at h
    split at h
    · next hx =>
      rcases List.mem_cons.1 h with rfl | h
      · exact hx
      · exact ih h
    · cases h

theorem takeWhile_space (s : List Char) : ∃ b, AllSpace b ∧ s = b ++ pyLstrip s :=
  ⟨s.takeWhile isPySpace, fun c hc => (isPySpace_iff c).1 (takeWhile_mem hc), (List.takeWhile_append_dropWhile).symm⟩

theorem pyStrip_parts (s : List Char) : ∃ b b', AllSpace b ∧ AllSpace b' ∧ s = b ++ (pyStrip s ++ b') := by
  obtain ⟨b, hb, e⟩ := takeWhile_space s
  obtain ⟨b', hb', e'⟩ := takeWhile_space (pyLstrip s).reverse
  refine ⟨b, b'.reverse, hb, fun c hc => hb' c (List.mem_reverse.1 hc), ?_⟩
  have e'' := congrArg List.reverse e'
  rw [List.reverse_append, List.reverse_reverse] at e''
  rw [pyStrip]
  rw [e'', pyLstrip] at e
  exact e

theorem pyStrip_core (b m b' : List Char) (hb : AllSpace b) (hb' : AllSpace b') (h1 : ∀ c ∈ m.head?, isPySpace c = false) (h2 : ∀ c ∈ m.getLast?, isPySpace c = false) (hne : m ≠ []) :
    pyStrip (b ++ (m ++ b')) = m := by
  have hf : ∃ c z, m = c :: z := List.exists_cons_of_ne_nil hne
  obtain ⟨c, z, hc⟩ := hf
  have hl := List.dropLast_concat_getLast hne
  rw [← List.append_assoc]
  refine pyStrip_around b m z b' [c] [m.getLast hne] (fun x hx => (isPySpace_iff x).2 (hb x hx)) (fun x hx => (isPySpace_iff x).2 (hb' x hx)) ⟨by simp, ?_⟩ ⟨by simp, ?_⟩ hc m.dropLast hl.symm
  · intro x hx
    rw [List.mem_singleton.1 hx]
    exact h1 c (by simp [hc])
  · intro x hx
    rw [List.mem_singleton.1 hx]
    exact h2 _ (by simp [List.getLast?_eq_some_getLast hne])

theorem groups_ends (gs : List (List Char)) (h : DigitGroups gs) :
    (∃ c z, ['_'].intercalate gs = c :: z ∧ isUniDigit c = true) ∧ ∃ c z, ['_'].intercalate gs = z ++ [c] ∧ isUniDigit c = true := by
  obtain ⟨hne, hg⟩ := h
  induction gs with
  | nil => exact absurd rfl hne
  | cons g gs ih =>
    obtain ⟨hgn, hgd⟩ := hg g (by simp)
    obtain ⟨c, z, rfl⟩ := List.exists_cons_of_ne_nil hgn
    cases gs with
    | nil =>
      have e : ['_'].intercalate [c :: z] = c :: z := by simp [List.intercalate, List.intersperse]
      rw [e]
      exact ⟨⟨c, z, rfl, hgd c (by simp)⟩, _, _, (List.dropLast_concat_getLast (List.cons_ne_nil c z)).symm, hgd _ (List.getLast_mem _)⟩
    | cons g' gs =>
      obtain ⟨-, c', z', h', hd'⟩ := ih (by simp) fun x hx => hg x (by simp [hx])
      have e : ['_'].intercalate ((c :: z) :: g' :: gs) = (c :: z) ++ '_' :: ['_'].intercalate (g' :: gs) := by simp [List.intercalate, List.intersperse]
      rw [e, h']
      exact ⟨⟨c, _, List.cons_append, hgd c (by simp)⟩, c', (c :: z) ++ '_' :: z', by simp, hd'⟩

theorem digit_not_space {c : Char} (h : isUniDigit c = true) : isPySpace c = false ∧ c ≠ '+' ∧ c ≠ '-' := by
  refine ⟨?_, ?_, ?_⟩
  · cases hs : isPySpace c with
    | false => rfl
    | true => rw [(space_no_digit c hs).1] at h; cases h
  · rintro rfl; revert h; decide +kernel
  · rintro rfl; revert h; decide +kernel

/-- **C64, C81** (`int`) A text is a number exactly if it is white space, a sign or none, digits in groups separated by single underscores, white space, and the digits are at most 4300;
its value is then the decimal one; every other text raises ValueError. -/
theorem C64_int (s : List Char) : (∀ i, pyInt s = .ok i ↔ IntText s i) ∧ ∀ e, pyInt s = .error e → e = .valueError := by
  have num : ∀ (r : List Char) (i : Int), (match intDigits r with | none => Except.error Exc.valueError | some d => (intOfDigits d).map fun (n : Nat) => (n : Int)) = .ok i ↔
      ∃ gs, DigitGroups gs ∧ r = ['_'].intercalate gs ∧ gs.flatten.length ≤ 4300 ∧ i = decimalValue gs.flatten := by
    intro r i
    constructor
    · intro h
      cases hd : intDigits r with
      | none => rw [hd] at h; cases h
      | some d =>
        obtain ⟨gs, hg, hr, rfl⟩ := (intDigits_groups r d).1 hd
        rw [hd] at h
        simp only [intOfDigits] at h
        split at h
        · cases h
        · next hl => cases h; exact ⟨gs, hg, hr, by omega, rfl⟩
    · rintro ⟨gs, hg, hr, hl, rfl⟩
      rw [(intDigits_groups r _).2 ⟨gs, hg, hr, rfl⟩]
      simp only [intOfDigits]
      rw [if_neg (by omega)]
      rfl
  have numE : ∀ (r : List Char) (e : Exc), (match intDigits r with | none => Except.error Exc.valueError | some d => (intOfDigits d).map fun (n : Nat) => (n : Int)) = .error e →
      e = .valueError := by
    intro r e h
    cases hd : intDigits r with
    | none => rw [hd] at h; cases h; rfl
    | some d =>
      rw [hd] at h
      simp only [intOfDigits] at h
      split at h
      · cases h; rfl
      · cases h
  have neg : ∀ (x : Except Exc Int) (i : Int), (x.map fun j => -j) = .ok i ↔ x = .ok (-i) := by
    intro x i
    cases x with
    | error e => simp [Except.map]
    | ok j => simp only [Except.map, Except.ok.injEq]; omega
  have negE : ∀ (x : Except Exc Int) (e : Exc), (x.map fun j => -j) = .error e → x = .error e := by
    intro x e h
    cases x with
    | error e => exact h
    | ok j => cases h
  refine ⟨fun i => ⟨fun h => ?_, ?_⟩, fun e h => ?_⟩
  · obtain ⟨b, b', hb, hb', e⟩ := pyStrip_parts s
    rw [pyInt] at h
    simp only at h
    split at h
    · next r hr =>
      have h := (num _ _).1 ((neg _ _).1 h)
      obtain ⟨gs, hg, hr', hl, hi⟩ := h
      exact ⟨b, gs, b', hb, hb', hg, hl, .inr (.inr ⟨by rw [hr, hr'] at e; exact e, by omega⟩)⟩
    · next r hr =>
      have h := (num _ _).1 h
      obtain ⟨gs, hg, hr', hl, hi⟩ := h
      exact ⟨b, gs, b', hb, hb', hg, hl, .inr (.inl ⟨by rw [hr, hr'] at e; exact e, hi⟩)⟩
    · have h := (num _ _).1 h
      obtain ⟨gs, hg, hr', hl, hi⟩ := h
      exact ⟨b, gs, b', hb, hb', hg, hl, .inl ⟨by rw [hr'] at e; exact e, hi⟩⟩
  · rintro ⟨b, gs, b', hb, hb', hg, hl, h⟩
    obtain ⟨⟨c, z, hc, hcd⟩, c', z', hc', hcd'⟩ := groups_ends gs hg
    have hlast : ∀ x ∈ (['_'].intercalate gs).getLast?, isPySpace x = false := by
      intro x hx
      rw [hc'] at hx
      simp only [List.getLast?_append, List.getLast?_singleton, Option.some_or, Option.mem_def, Option.some.injEq] at hx
      rw [← hx]; exact (digit_not_space hcd').1
    have hlast' : ∀ (a : Char), ∀ x ∈ (a :: ['_'].intercalate gs).getLast?, isPySpace x = false := by
      intro a x hx
      apply hlast x
      rw [hc] at hx ⊢
      simpa [List.getLast?_cons_cons] using hx
    have hn := (num (['_'].intercalate gs) (decimalValue gs.flatten)).2 ⟨gs, hg, rfl, hl, rfl⟩
    rw [pyInt]
    rcases h with ⟨rfl, rfl⟩ | ⟨rfl, rfl⟩ | ⟨rfl, rfl⟩
    · rw [pyStrip_core b _ b' hb hb' (by rw [hc]; simpa using (digit_not_space hcd).1) hlast (by rw [hc]; simp)]
      simp only
      split
      · next h => rw [hc] at h; cases h; exact absurd rfl (digit_not_space hcd).2.2
      · next h => rw [hc] at h; cases h; exact absurd rfl (digit_not_space hcd).2.1
      · exact hn
    · rw [← List.cons_append, pyStrip_core b _ b' hb hb' (by simp; decide) (hlast' _) (by simp)]
      exact hn
    · rw [← List.cons_append, pyStrip_core b _ b' hb hb' (by simp; decide) (hlast' _) (by simp)]
      refine (neg _ _).2 ?_
      rw [Int.neg_neg]
      exact hn
  · rw [pyInt] at h
    simp only at h
    split at h
    · next r _ =>
      exact numE r e (negE _ _ h)
    · exact numE _ e h
    · exact numE _ e h

example : IntText " +1_000\n".toList 1000 :=
  ⟨" ".toList, ["1".toList, "000".toList], "\n".toList, by unfold AllSpace; decide, by unfold AllSpace; decide, by unfold DigitGroups; decide +kernel, by decide,
    .inr (.inl ⟨by decide +kernel, by decide +kernel⟩)⟩
example : pyInt "-٣".toList = .ok (-3) ∧ pyInt "1__0".toList = .error .valueError := by decide +kernel

/-! ## Lines of any words -/

theorem rsplitColon_none (s : List Char) (h : ':' ∉ s) : rsplitColon s = .error .valueError := by rw [rsplitColon, if_neg h]

/-- A line is words with white space between, and around. -/
def IsLine (l : List Char) (ws : List (List Char)) : Prop :=
  ∃ b w rest b', AllSpace b ∧ AllSpace b' ∧ Word w ∧ (∀ p ∈ rest, Blank p.1 ∧ Word p.2) ∧ l = b ++ (w ++ blankWords rest ++ b') ∧ ws = w :: rest.map (·.2)

theorem blankWords_last (rest : List (List Char × List Char)) (h : ∀ p ∈ rest, Blank p.1 ∧ Word p.2) (w : List Char) (hw : Word w) :
    ∀ c ∈ (w ++ blankWords rest).getLast?, isPySpace c = false := by
  rcases List.eq_nil_or_concat rest with rfl | ⟨r, p, rfl⟩
  · intro c hc
    simp only [blankWords, List.flatMap_nil, List.append_nil] at hc
    exact hw.2 c (List.mem_of_getLast? hc)
  · intro c hc
    have hp := h p (by simp)
    have e : w ++ blankWords (r ++ [p]) = (w ++ blankWords r ++ p.1) ++ p.2 := by simp [blankWords]
    rw [List.concat_eq_append] at hc
    rw [e, List.getLast?_append, List.getLast?_eq_some_getLast hp.2.1, Option.some_or, ← List.getLast?_eq_some_getLast hp.2.1] at hc
    exact hp.2.2 c (List.mem_of_getLast? hc)

theorem words_of_line {l : List Char} {ws : List (List Char)} (h : IsLine l ws) : splitWs (pyStrip l) [] false = ws := by
  obtain ⟨b, w, rest, b', hb, hb', hw, hr, rfl, rfl⟩ := h
  rw [pyStrip_core b _ b' hb hb' ?_ (blankWords_last rest hr w hw) (by simp [hw.1]), splitWs_word _ _ _ hw.2, splitWs_words _ hr]
  · rfl
  · intro c hc
    obtain ⟨x, z, rfl⟩ := List.exists_cons_of_ne_nil hw.1
    simp only [List.cons_append, List.head?_cons, Option.mem_def, Option.some.injEq] at hc
    rw [← hc]; exact hw.2 x (by simp)

/-- **C81** (Windows, any line of words) Lines of fewer than five words, or of another protocol than TCP and UDP, are skipped. -/
theorem C81_skip (l : List Char) (ws : List (List Char)) (h : IsLine l ws) (hs : ws.length < 5 ∨ (∀ w ∈ ws.head?, w ≠ "TCP".toList ∧ w ≠ "UDP".toList)) : winLine l = .ok none := by
  rw [winLine]
  simp only [words_of_line h]
  rcases ws with _ | ⟨a, _ | ⟨b, _ | ⟨c, _ | ⟨d, _ | ⟨e, r⟩⟩⟩⟩⟩ <;> try rfl
  rcases hs with hs | hs
  · simp at hs; omega
  · have := hs a (by simp)
    simp only [if_neg (not_or.2 this)]

/-- **C81** (Windows, any line of words) A line of five words or more beginning with TCP or UDP gives the port: protocol in lower case, address and port number separated at the last
colon, the state (LISTEN for LISTENING), the pid; it raises ValueError if the second word has no colon, or the port or the pid is no number. -/
theorem C81_words (l proto loc foreign state pid : List Char) (more : List (List Char)) (h : IsLine l (proto :: loc :: foreign :: state :: pid :: more))
    (low : List Char) (hp : (proto = "TCP".toList ∧ low = "tcp".toList) ∨ (proto = "UDP".toList ∧ low = "udp".toList)) :
    (∀ addr port n i, loc = addr ++ ':' :: port → ':' ∉ port → IntText port n → IntText pid i →
      winLine l = .ok (some ⟨low, addr, n, if state = "LISTENING".toList then "LISTEN".toList else state, i⟩)) ∧
    ((':' ∉ loc ∨ (∃ addr port, loc = addr ++ ':' :: port ∧ ':' ∉ port ∧ ∀ n, ¬ IntText port n) ∨ ∀ i, ¬ IntText pid i) → winLine l = .error .valueError) := by
  have hpp : proto = "TCP".toList ∨ proto = "UDP".toList := hp.imp (·.1) (·.1)
  have hlow : lowerProto proto = low := by rcases hp with ⟨rfl, rfl⟩ | ⟨rfl, rfl⟩ <;> decide +kernel
  have bad : ∀ s, (∀ n, ¬ IntText s n) → pyInt s = .error .valueError := by
    intro s hn
    cases hs : pyInt s with
    | ok n => exact absurd ((C64_int s).1 n |>.1 hs) (hn n)
    | error e => rw [(C64_int s).2 e hs]
  constructor
  · intro addr port n i hl hc hn hi
    rw [winLine]
    simp only [words_of_line h, if_pos hpp]
    rw [hl, rsplitColon_last _ _ fun c hc' he => hc (he ▸ hc')]
    simp only [((C64_int pid).1 i).2 hi, ((C64_int port).1 n).2 hn, hlow]
  · intro hb
    rw [winLine]
    simp only [words_of_line h, if_pos hpp]
    by_cases hcol : ':' ∈ loc
    · obtain ⟨addr, port, hl, hc⟩ : ∃ addr port, loc = addr ++ ':' :: port ∧ ':' ∉ port := by
        clear hb h
        induction loc with
        | nil => cases hcol
        | cons c loc ih =>
          by_cases hc : ':' ∈ loc
          · obtain ⟨a, p, e, hp⟩ := ih hc
            exact ⟨c :: a, p, by rw [e]; rfl, hp⟩
          · rcases List.mem_cons.1 hcol with rfl | h
            · exact ⟨[], loc, rfl, hc⟩
            · exact absurd h hc
      rw [hl, rsplitColon_last _ _ fun c hc' he => hc (he ▸ hc')]
      simp only
      rcases hb with hb | ⟨a', p', hl', hc', hn⟩ | hi
      · exact absurd hcol hb
      · have : rsplitColon loc = .ok (a', p') := by rw [hl', rsplitColon_last _ _ fun c hx he => hc' (he ▸ hx)]
        rw [hl, rsplitColon_last _ _ fun c hc' he => hc (he ▸ hc')] at this
        cases this
        cases hpid : pyInt pid with
        | error e => simp only [(C64_int pid).2 e hpid]
        | ok i => simp only [bad _ hn]
      · rw [bad _ hi]
    · rw [rsplitColon_none _ hcol]

/-- **C81** (Linux, any line of words) A line of seven words or more beginning with tcp or udp raises, AttributeError if its fourth word has a colon, else ValueError; all others
are skipped. -/
theorem C81_words_linux (l : List Char) (ws : List (List Char)) (h : IsLine l ws) :
    linuxLine l = if 7 ≤ ws.length ∧ (ws[0]? = some "tcp".toList ∨ ws[0]? = some "udp".toList) then .error (if ∃ w ∈ ws[3]?, ':' ∈ w then .attributeError else .valueError)
      else .ok none := by
  rw [linuxLine]
  simp only [words_of_line h]
  rcases ws with _ | ⟨a, _ | ⟨b, _ | ⟨c, _ | ⟨d, _ | ⟨e, _ | ⟨f, _ | ⟨g, r⟩⟩⟩⟩⟩⟩⟩ <;> try rfl
  simp only [List.length_cons, List.getElem?_cons_zero, Option.some.injEq, show 7 ≤ r.length + 1 + 1 + 1 + 1 + 1 + 1 + 1 by omega, true_and, List.getElem?_cons_succ, Option.mem_def,
    exists_eq_left']
  split
  · next hp =>
    by_cases hd : ':' ∈ d
    · rw [rsplitColon, if_pos hd, if_pos hd]
    · rw [rsplitColon, if_neg hd, if_neg hd]
  · rfl

example : IsLine "UDP [::]:53 *:* x 12".toList ["UDP".toList, "[::]:53".toList, "*:*".toList, "x".toList, "12".toList] :=
  ⟨[], "UDP".toList, [(" ".toList, "[::]:53".toList), (" ".toList, "*:*".toList), (" ".toList, "x".toList), (" ".toList, "12".toList)], [], by simp [AllSpace], by simp [AllSpace],
    by unfold Word; decide +kernel, by unfold Blank Word; decide +kernel, by decide +kernel, by decide +kernel⟩
example : winLine "UDP [::]:53 *:* x 12".toList = .ok (some ⟨"udp".toList, "[::]".toList, 53, "x".toList, 12⟩) := by decide +kernel
example : linuxLine "tcp 0 0 127.0.0.1:22 0.0.0.0:* LISTEN 7/sshd".toList = .error .attributeError := by decide +kernel

namespace Ex

/-! ## The theorems on these cases -/

theorem udp_line : IsLine "UDP [::]:53 *:* x 12".toList ["UDP".toList, "[::]:53".toList, "*:*".toList, "x".toList, "12".toList] :=
  ⟨[], "UDP".toList, [(" ".toList, "[::]:53".toList), (" ".toList, "*:*".toList), (" ".toList, "x".toList), (" ".toList, "12".toList)], [], by simp [AllSpace], by simp [AllSpace],
    by unfold Word; decide +kernel, by unfold Blank Word; decide +kernel, by decide +kernel, by decide +kernel⟩
theorem digits_text {d : List Char} (h : d ≠ [] ∧ ∀ c ∈ d, isUniDigit c = true) (hl : d.length ≤ 4300) : IntText d (decimalValue d) :=
  ⟨[], [d], [], by simp [AllSpace], by simp [AllSpace], ⟨by simp, by simpa using h⟩, by simpa using hl, .inl ⟨by simp [List.intercalate], by simp⟩⟩
example := (C81_words _ _ _ _ _ _ _ udp_line "udp".toList (.inr ⟨rfl, rfl⟩)).1 "[::]".toList "53".toList _ _ (by decide +kernel) (by decide +kernel)
  (digits_text (d := "53".toList) (by decide +kernel) (by decide +kernel)) (digits_text (d := "12".toList) (by decide +kernel) (by decide +kernel))
/-- A title with five words, and a line with four. -/
theorem title_line : IsLine "Proto Local Foreign State PID".toList ["Proto".toList, "Local".toList, "Foreign".toList, "State".toList, "PID".toList] :=
  ⟨[], "Proto".toList, [(" ".toList, "Local".toList), (" ".toList, "Foreign".toList), (" ".toList, "State".toList), (" ".toList, "PID".toList)], [], by simp [AllSpace], by simp [AllSpace],
    by unfold Word; decide +kernel, by unfold Blank Word; decide +kernel, by decide +kernel, by decide +kernel⟩
example := C81_skip _ _ title_line (.inr (by decide +kernel))
example := C81_words_linux _ _ title_line
theorem tcp_line : IsLine "tcp 0 0 127.0.0.1:22 0.0.0.0:* LISTEN 7/sshd".toList
    ["tcp".toList, "0".toList, "0".toList, "127.0.0.1:22".toList, "0.0.0.0:*".toList, "LISTEN".toList, "7/sshd".toList] :=
  ⟨[], "tcp".toList, [(" ".toList, "0".toList), (" ".toList, "0".toList), (" ".toList, "127.0.0.1:22".toList), (" ".toList, "0.0.0.0:*".toList), (" ".toList, "LISTEN".toList), (" ".toList, "7/sshd".toList)],
    [], by simp [AllSpace], by simp [AllSpace], by unfold Word; decide +kernel, by unfold Blank Word; decide +kernel, by decide +kernel, by decide +kernel⟩
example := C81_words_linux _ _ tcp_line

end Ex

end Verif
