import Verif.Model.FindWin
import Verif.Props.Util
/-!
# C133: process search on Windows

The statement is that of C64: the processes found are those with the search text in their command line, and `kill_procs` kills only these.
-/
namespace Verif

/-- Two texts of the same length, with characters that count as the same. -/
def SameText (same : Char → Char → Bool) : List Char → List Char → Prop
  | [], [] => True
  | a :: s, b :: t => same a b = true ∧ SameText same s t
  | _, _ => False

/-- The text occurs, up to characters that count as the same. -/
def OccursUpTo (same : Char → Char → Bool) (s t : List Char) : Prop := ∃ a m b, t = a ++ m ++ b ∧ SameText same s m

/-- A character with no meaning of its own in a query. -/
def WqlPlain (c : Char) : Prop := c ≠ '"' ∧ c ≠ '\\' ∧ c ≠ '%' ∧ c ≠ '_' ∧ c ≠ '['

theorem wqlText_plain : ∀ (s r : List Char), (∀ c ∈ s, c ≠ '"' ∧ c ≠ '\\') → wqlText (s ++ r) = (wqlText r).map fun p => (s ++ p.1, p.2)
  | [], r, _ => by rw [List.nil_append]; cases wqlText r <;> rfl
  | c :: s, r, h => by
    have hc := h c (by simp)
    have ih := wqlText_plain s r fun x hx => h x (by simp [hx])
    rw [List.cons_append, wqlText.eq_6 _ _ (fun e => hc.1 e) (fun _ e => absurd e hc.2) (fun _ e => absurd e hc.2) (fun e => hc.2 e), ih]
    cases wqlText r <;> rfl

/-- The parts of a search text of ordinary characters and wildcards. -/
def tokOf (c : Char) : LikeTok := if c = '%' then .any else if c = '_' then .one else .lit c

theorem likeToks_plain : ∀ (s : List Char), (∀ c ∈ s, c ≠ '[') → likeToks s none = some (s.map tokOf)
  | [], _ => rfl
  | c :: s, h => by
    have hc := h c (by simp)
    have ih := likeToks_plain s fun x hx => h x (by simp [hx])
    simp only [likeToks, ih, tokOf, hc, if_false, List.map_cons, Option.map_some]
    by_cases h1 : c = '%'
    · simp [h1]
    · by_cases h2 : c = '_' <;> simp [h1, h2]

theorem findWin_toks (W : WqlLib) (table : List WinProc) (search : List Char) (h : ∀ c ∈ search, c ≠ '"' ∧ c ≠ '\\' ∧ c ≠ '[') :
    findWin W table search = some (winMatching W (.any :: (search.map tokOf ++ [.any])) table) := by
  have e : '%' :: search ++ ['%', '"'] = ('%' :: search ++ ['%']) ++ ['"'] := by simp
  have hq : ∀ c ∈ '%' :: search ++ ['%'], c ≠ '"' ∧ c ≠ '\\' ∧ c ≠ '[' := by
    intro c hc
    simp only [List.cons_append, List.mem_cons, List.mem_append, List.not_mem_nil, or_false] at hc
    rcases hc with rfl | hc | rfl
    · decide
    · exact h c hc
    · decide
  have ht : wqlText ['"'] = some ([], []) := by simp [wqlText]
  rw [findWin, e, wqlText_plain _ _ fun c hc => ⟨(hq c hc).1, (hq c hc).2.1⟩, ht]
  simp only [Option.map_some, List.append_nil]
  rw [likeToks_plain _ fun c hc => (hq c hc).2.2]
  simp [tokOf]

theorem likeMatch_any (W : WqlLib) (p : List LikeTok) : ∀ s, likeMatch W (.any :: p) s = true ↔ ∃ a b, s = a ++ b ∧ likeMatch W p b = true
  | [] => by
    rw [likeMatch]
    constructor
    · exact fun h => ⟨[], [], rfl, h⟩
    · rintro ⟨a, b, h1, h2⟩
      obtain ⟨rfl, rfl⟩ := List.append_eq_nil_iff.1 h1.symm
      exact h2
  | c :: s => by
    rw [likeMatch, Bool.or_eq_true, likeMatch_any W p s]
    constructor
    · rintro (h | ⟨a, b, rfl, h⟩)
      · exact ⟨[], _, rfl, h⟩
      · exact ⟨c :: a, b, rfl, h⟩
    · rintro ⟨a, b, h1, h2⟩
      cases a with
      | nil => simp only [List.nil_append] at h1; exact .inl (h1 ▸ h2)
      | cons x a =>
        simp only [List.cons_append, List.cons.injEq] at h1
        exact .inr ⟨a, b, h1.2, h2⟩

theorem likeMatch_lits (W : WqlLib) : ∀ (s t : List Char), (∀ c ∈ s, c ≠ '%' ∧ c ≠ '_') →
    (likeMatch W (s.map tokOf ++ [.any]) t = true ↔ ∃ m b, t = m ++ b ∧ SameText W.same s m)
  | [], t, _ => by
    simp only [List.map_nil, List.nil_append]
    rw [likeMatch_any]
    constructor
    · rintro ⟨a, b, rfl, _⟩; exact ⟨[], _, rfl, trivial⟩
    · rintro ⟨m, b, rfl, h⟩; exact ⟨m ++ b, [], by simp, by simp [likeMatch]⟩
  | c :: s, t, h => by
    have hc := h c (by simp)
    have ht : tokOf c = .lit c := by simp [tokOf, hc.1, hc.2]
    have ih := fun t => likeMatch_lits W s t fun x hx => h x (by simp [hx])
    rw [List.map_cons, List.cons_append, ht]
    cases t with
    | nil =>
      simp only [likeMatch, Bool.false_eq_true, false_iff]
      rintro ⟨m, b, h1, h2⟩
      obtain ⟨rfl, rfl⟩ := List.append_eq_nil_iff.1 h1.symm
      exact h2
    | cons x t =>
      rw [likeMatch, Bool.and_eq_true, ih t]
      constructor
      · rintro ⟨h1, m, b, rfl, h2⟩; exact ⟨x :: m, b, rfl, h1, h2⟩
      · rintro ⟨m, b, h1, h2⟩
        cases m with
        | nil => exact h2.elim
        | cons y m =>
          simp only [List.cons_append, List.cons.injEq] at h1
          obtain ⟨rfl, rfl⟩ := h1
          exact ⟨h2.1, m, b, rfl, h2.2⟩

theorem mem_winMatching {W : WqlLib} {toks : List LikeTok} {table : List WinProc} {i : Int} {c : List Char} :
    (i, c) ∈ winMatching W toks table ↔ ∃ p ∈ table, (p.pid : Int) = i ∧ p.cmd = some c ∧ likeMatch W toks c = true := by
  simp only [winMatching, List.mem_filterMap]
  constructor
  · rintro ⟨p, hp, h⟩
    split at h
    · rename_i d hd
      split at h
      · rename_i hm
        simp only [Option.some.injEq, Prod.mk.injEq] at h
        obtain ⟨rfl, rfl⟩ := h
        exact ⟨p, hp, rfl, hd, hm⟩
      · cases h
    · cases h
  · rintro ⟨p, hp, rfl, h1, h2⟩
    exact ⟨p, hp, by simp [h1, h2]⟩

/-- **C133** On Windows, for every list of processes and every search text without a quote, backslash, `%`, `_` or `[`: the processes found are those with the text in their command
line, up to characters that WMI takes for the same (upper and lower case). -/
theorem C133_find_partial (W : WqlLib) (table : List WinProc) (search : List Char) (h : ∀ c ∈ search, WqlPlain c) :
    ∃ l, findWin W table search = some l ∧
      ∀ i c, (i, c) ∈ l ↔ ∃ p ∈ table, (p.pid : Int) = i ∧ p.cmd = some c ∧ OccursUpTo W.same search c := by
  refine ⟨_, findWin_toks W table search fun c hc => ⟨(h c hc).1, (h c hc).2.1, (h c hc).2.2.2.2⟩, fun i c => ?_⟩
  rw [mem_winMatching]
  have key : likeMatch W (.any :: (search.map tokOf ++ [.any])) c = true ↔ OccursUpTo W.same search c := by
    rw [likeMatch_any]
    constructor
    · rintro ⟨a, b, rfl, h1⟩
      obtain ⟨m, b, rfl, h2⟩ := (likeMatch_lits W search b fun x hx => ⟨(h x hx).2.2.1, (h x hx).2.2.2.1⟩).1 h1
      exact ⟨a, m, b, by simp, h2⟩
    · rintro ⟨a, m, b, rfl, h2⟩
      exact ⟨a, m ++ b, by simp, (likeMatch_lits W search _ fun x hx => ⟨(h x hx).2.2.1, (h x hx).2.2.2.1⟩).2 ⟨m, b, rfl, h2⟩⟩
  simp only [key]

theorem sameText_eq {same : Char → Char → Bool} (hs : ∀ a b, same a b = true → a = b) : ∀ s m, SameText same s m → s = m
  | [], [], _ => rfl
  | a :: s, b :: m, h => by rw [hs a b h.1, sameText_eq hs s m h.2]
  | [], _ :: _, h => h.elim
  | _ :: _, [], h => h.elim

theorem sameText_refl {same : Char → Char → Bool} (hs : ∀ a, same a a = true) : ∀ s, SameText same s s
  | [] => trivial
  | a :: s => ⟨hs a, sameText_refl hs s⟩

/-- **C133** No process is missed: a process with the text in its command line is found (search texts as above; any way of comparing in which a character is the same as itself). If WMI
told all characters apart, only such processes would be found. -/
theorem C133_found_partial (W : WqlLib) (table : List WinProc) (search : List Char) (h : ∀ c ∈ search, WqlPlain c) :
    ∃ l, findWin W table search = some l ∧
      ((∀ a, W.same a a = true) → ∀ p ∈ table, ∀ c, p.cmd = some c → Occurs search c → ((p.pid : Int), c) ∈ l) ∧
      ((∀ a b, W.same a b = true → a = b) → ∀ i c, (i, c) ∈ l → Occurs search c) := by
  obtain ⟨l, h1, h2⟩ := C133_find_partial W table search h
  refine ⟨l, h1, fun hr p hp c hc ho => ?_, fun hs i c hm => ?_⟩
  · obtain ⟨a, b, ho⟩ := ho
    exact (h2 _ _).2 ⟨p, hp, rfl, hc, a, search, b, ho, sameText_refl hr search⟩
  · obtain ⟨p, _, _, _, a, m, b, rfl, hx⟩ := (h2 i c).1 hm
    rw [sameText_eq hs _ _ hx]
    exact ⟨a, b, rfl⟩

/-- **C133 fails**: case is ignored, so processes are found whose command line does not contain the text. For every WMI that takes two different characters for the same. -/
theorem C133_fails_case (W : WqlLib) (x y : Char) (hxy : x ≠ y) (hx : WqlPlain x) (hs : W.same x y = true) (pid : Nat) :
    findWin W [⟨pid, some [y]⟩] [x] = some [((pid : Int), [y])] ∧ ¬ Occurs [x] [y] := by
  constructor
  · obtain ⟨l, h1, h2⟩ := C133_find_partial W [⟨pid, some [y]⟩] [x] (by simpa using hx)
    rw [findWin_toks W _ _ (by simpa using ⟨hx.1, hx.2.1, hx.2.2.2.2⟩)]
    have ht : tokOf x = .lit x := by simp [tokOf, hx.2.2.1, hx.2.2.2.1]
    have : likeMatch W (.any :: ([x].map tokOf ++ [.any])) [y] = true :=
      (likeMatch_any W _ _).2 ⟨[], [y], rfl, by simp [ht, likeMatch, hs]⟩
    simp only [winMatching, List.filterMap_cons, List.filterMap_nil, this, if_true]
  · rintro ⟨a, b, h⟩
    have hl := congrArg List.length h
    simp only [List.length_append, List.length_cons, List.length_nil] at hl
    have ha : a = [] := List.eq_nil_of_length_eq_zero (by omega)
    have hb : b = [] := List.eq_nil_of_length_eq_zero (by omega)
    subst ha hb
    simp only [List.nil_append, List.append_nil, List.cons.injEq, and_true] at h
    exact hxy h.symm

/-- The text with one character of it exchanged. -/
theorem likeMatch_under (W : WqlLib) (hr : ∀ a, W.same a a = true) : ∀ (s : List Char) (p : List LikeTok) (t : List Char), (∀ c ∈ s, c ≠ '%' ∧ c ≠ '_') →
    likeMatch W p t = true → likeMatch W (s.map tokOf ++ p) (s ++ t) = true
  | [], p, t, _, h => h
  | c :: s, p, t, hc, h => by
    have h0 := hc c (by simp)
    simp only [List.map_cons, List.cons_append, tokOf, h0.1, h0.2, if_false, likeMatch, hr, Bool.true_and]
    exact likeMatch_under W hr s p t (fun x hx => hc x (by simp [hx])) h

/-- **C133 fails**: an underscore in the search text stands for any character. A search for `a_b` finds a process with any other character in its place, for all texts `a` and `b`. -/
theorem C133_fails_underscore (W : WqlLib) (hr : ∀ a, W.same a a = true) (a b : List Char) (ha : ∀ c ∈ a, WqlPlain c) (hb : ∀ c ∈ b, WqlPlain c) (x : Char) (hx : x ≠ '_') (pid : Nat) :
    findWin W [⟨pid, some (a ++ x :: b)⟩] (a ++ '_' :: b) = some [((pid : Int), a ++ x :: b)] ∧ ¬ Occurs (a ++ '_' :: b) (a ++ x :: b) := by
  constructor
  · rw [findWin_toks]
    · have hm : likeMatch W (.any :: ((a ++ '_' :: b).map tokOf ++ [.any])) (a ++ x :: b) = true := by
        refine (likeMatch_any W _ _).2 ⟨[], _, rfl, ?_⟩
        rw [List.map_append, List.append_assoc]
        refine likeMatch_under W hr a _ _ (fun c hc => ⟨(ha c hc).2.2.1, (ha c hc).2.2.2.1⟩) ?_
        have hu : tokOf '_' = .one := by decide
        rw [List.map_cons, hu, List.cons_append, likeMatch]
        have := likeMatch_under W hr b [.any] [] (fun c hc => ⟨(hb c hc).2.2.1, (hb c hc).2.2.2.1⟩) (by simp [likeMatch])
        simpa using this
      simp only [winMatching, List.filterMap_cons, List.filterMap_nil, hm, if_true]
    · intro c hc
      rcases List.mem_append.1 hc with hc | hc
      · exact ⟨(ha c hc).1, (ha c hc).2.1, (ha c hc).2.2.2.2⟩
      · rcases List.mem_cons.1 hc with rfl | hc
        · decide
        · exact ⟨(hb c hc).1, (hb c hc).2.1, (hb c hc).2.2.2.2⟩
  · rintro ⟨u, v, h⟩
    have hl := congrArg List.length h
    simp only [List.length_append, List.length_cons] at hl
    have hu : u = [] := List.eq_nil_of_length_eq_zero (by omega)
    have hv : v = [] := List.eq_nil_of_length_eq_zero (by omega)
    subst hu hv
    simp only [List.nil_append, List.append_nil] at h
    have := List.append_cancel_left h
    simp only [List.cons.injEq] at this
    exact hx this.1

theorem find_all (W : WqlLib) (table : List WinProc) : findWin W table [] = some (table.filterMap fun p => p.cmd.map fun c => ((p.pid : Int), c)) := by
  rw [findWin_toks W table [] (by simp)]
  have : ∀ c, likeMatch W (.any :: (([] : List Char).map tokOf ++ [.any])) c = true := by
    intro c
    refine (likeMatch_any W _ _).2 ⟨[], c, rfl, (likeMatch_any W _ _).2 ⟨c, [], by simp, by simp [likeMatch]⟩⟩
  congr 1
  unfold winMatching
  congr 1
  funext p
  cases h : p.cmd with
  | none => rfl
  | some c => simp only [this, if_true, Option.map_some]

/-- **C133 fails**: `PROCESS_NAME_PREFIX` is empty unless somebody sets it, and then `kill_procs` kills every process it may whose command line can be read, whatever text it is given. -/
theorem C133_fails_kill (W : WqlLib) (t₁ t₂ : List WinProc) (kill : Int → Except Exc Unit) (hk : ∀ i, kill i = .ok ()) (search : List Char)
    (h₁ : ∃ p ∈ t₁, p.cmd ≠ none) :
    ∃ l, killWin W [] t₁ t₂ kill search = some (l.map (·.1), .ok l) ∧ ∀ i c, (i, c) ∈ l ↔ ∃ p ∈ t₂, (p.pid : Int) = i ∧ p.cmd = some c := by
  have hm : ∀ i c, (i, c) ∈ (t₂.filterMap fun p => p.cmd.map fun c => ((p.pid : Int), c)) ↔ ∃ p ∈ t₂, (p.pid : Int) = i ∧ p.cmd = some c := by
    intro i c
    rw [List.mem_filterMap]
    constructor
    · rintro ⟨p, hp, h⟩
      obtain ⟨d, hd, h⟩ := Option.map_eq_some_iff.1 h
      simp only [Prod.mk.injEq] at h
      obtain ⟨rfl, rfl⟩ := h
      exact ⟨p, hp, rfl, hd⟩
    · rintro ⟨p, hp, rfl, h⟩
      exact ⟨p, hp, by rw [h]; rfl⟩
  rw [killWin, find_all W t₁, find_all W t₂]
  generalize hl1 : (t₁.filterMap fun p => p.cmd.map fun c => ((p.pid : Int), c)) = l1
  generalize (t₂.filterMap fun p => p.cmd.map fun c => ((p.pid : Int), c)) = l2 at hm
  cases l1 with
  | nil =>
    obtain ⟨p, hp, hc⟩ := h₁
    obtain ⟨c, hc⟩ := Option.ne_none_iff_exists'.1 hc
    have : ((p.pid : Int), c) ∈ ([] : List (Int × List Char)) := hl1 ▸ List.mem_filterMap.2 ⟨p, hp, by rw [hc]; rfl⟩
    cases this
  | cons x l1 =>
    refine ⟨l2, ?_, hm⟩
    cases l2 with
    | nil => rfl
    | cons y l2 => simp only [killAll_ok kill (y :: l2) fun p _ => hk p.1]

/-- **C133 fails**: the search text is ignored. -/
theorem C133_fails_ignored (W : WqlLib) (np : List Char) (t₁ t₂ : List WinProc) (kill) (search search' : List Char) :
    killWin W np t₁ t₂ kill search = killWin W np t₁ t₂ kill search' := rfl

/-- **C133** With a prefix of ordinary characters `kill_procs` kills only processes that have it in their command line after the pause, up to characters taken for the same. -/
theorem C133_kill_partial (W : WqlLib) (t₁ t₂ : List WinProc) (np : List Char) (h : ∀ c ∈ np, WqlPlain c) (kill : Int → Except Exc Unit) (search : List Char) :
    ∃ k r, killWin W np t₁ t₂ kill search = some (k, r) ∧ ∀ i ∈ k, ∃ p ∈ t₂, (p.pid : Int) = i ∧ ∃ c, p.cmd = some c ∧ OccursUpTo W.same np c := by
  obtain ⟨l1, e1, _⟩ := C133_find_partial W t₁ np h
  obtain ⟨l2, e2, m2⟩ := C133_find_partial W t₂ np h
  rw [killWin, e1, e2]
  cases l1 with
  | nil => exact ⟨[], _, rfl, by simp⟩
  | cons x l1 =>
    cases l2 with
    | nil => exact ⟨[], _, rfl, by simp⟩
    | cons y l2 =>
      have hsub := (killAll_sub kill (y :: l2)).subset
      have hk : ∀ i ∈ (killAll kill (y :: l2)).1, ∃ p ∈ t₂, (p.pid : Int) = i ∧ ∃ c, p.cmd = some c ∧ OccursUpTo W.same np c := by
        intro i hi
        obtain ⟨⟨j, c⟩, hm, rfl⟩ := List.mem_map.1 (hsub hi)
        obtain ⟨p, hp, h1, h2, h3⟩ := (m2 j c).1 hm
        exact ⟨p, hp, h1, c, h2, h3⟩
      simp only
      cases hka : killAll kill (y :: l2) with
      | mk k e =>
        rw [hka] at hk
        cases e with
        | none => exact ⟨k, _, rfl, hk⟩
        | some e => exact ⟨k, _, rfl, hk⟩

/-- **C133** The platform decides: Linux asks `ps` (C64), Windows asks WMI, and everywhere else the search raises NotImplementedError. -/
theorem C133_platform (W : WqlLib) (ps : Bytes) (table : List WinProc) (search : List Char) :
    findOn W ps table .other search = some (.error (.other "NotImplementedError")) ∧
    (∀ l, findWin W table search = some l → findOn W ps table .win32 search = some (.ok l)) ∧
    (∀ (pad : Nat) (procs : List PsProc), (∀ p ∈ procs, p.ok) → ps = utf8 (psOutput pad procs) → search ≠ [] → ¬ Occurs search "COMMAND".toList →
      ∃ l, findOn W ps table .linux search = some (.ok l) ∧
        ∀ i line, (i, line) ∈ l ↔ ∃ p ∈ procs, Occurs search p.cmd ∧ (p.pid : Int) = i ∧ psLine p.pad p.pid p.cmd = line) := by
  refine ⟨rfl, fun l h => by simp [findOn, h], fun pad procs hp he hne hh => ?_⟩
  subst he
  refine ⟨_, by rw [findOn, C64_find_partial pad procs hp search hne hh _ fun p => isIn_iff search p.cmd], fun i line => ?_⟩
  simp only [List.mem_map, List.mem_filter, isIn_iff, Prod.mk.injEq, and_assoc]

/-- The text as it is written between the quotes of a query. -/
def wqlQuoted : List Char → List Char
  | [] => []
  | c :: s => if c = '"' ∨ c = '\\' then '\\' :: c :: wqlQuoted s else c :: wqlQuoted s

/-- The patterns of `like`: `%` stands for any text, `_` for any character, `[...]` for one of a set, other characters for themselves. -/
inductive Like (W : WqlLib) : List Char → List Char → Prop where
  | nil : Like W [] []
  | any {p t} (s) (h : Like W p t) : Like W ('%' :: p) (s ++ t)
  | one {p t} (c) (h : Like W p t) : Like W ('_' :: p) (c :: t)
  | set {p t cs c} (hc : ']' ∉ cs) (hs : W.inSet cs c = true) (h : Like W p t) : Like W ('[' :: (cs ++ ']' :: p)) (c :: t)
  | lit {p t a c} (ha : a ≠ '%' ∧ a ≠ '_' ∧ a ≠ '[') (hs : W.same a c = true) (h : Like W p t) : Like W (a :: p) (c :: t)

theorem wqlText_quoted : ∀ (t r : List Char), wqlText (wqlQuoted t ++ '"' :: r) = some (t, r)
  | [], r => by simp [wqlQuoted, wqlText]
  | c :: t, r => by
    have ih := wqlText_quoted t r
    simp only [wqlQuoted]
    by_cases h1 : c = '"'
    · subst h1; simp [wqlText, ih]
    · by_cases h2 : c = '\\'
      · subst h2; simp [wqlText, ih]
      · rw [if_neg (by simp [h1, h2]), List.cons_append, wqlText.eq_6 _ _ (fun e => h1 e) (fun _ e => absurd e h2) (fun _ e => absurd e h2) (fun e => h2 e), ih]
        rfl

theorem wqlText_sound : ∀ (x t r : List Char), wqlText x = some (t, r) → x = wqlQuoted t ++ '"' :: r := by
  intro x
  induction x using wqlText.induct with
  | case1 => intro t r h; simp [wqlText] at h
  | case2 r' =>
    intro t r h
    simp only [wqlText, Option.some.injEq, Prod.mk.injEq] at h
    obtain ⟨rfl, rfl⟩ := h
    rfl
  | case3 r' ih =>
    intro t r h
    simp only [wqlText] at h
    obtain ⟨p, hp, h⟩ := Option.map_eq_some_iff.1 h
    simp only [Prod.mk.injEq] at h
    obtain ⟨rfl, rfl⟩ := h
    rw [ih _ _ hp]; simp [wqlQuoted]
  | case4 r' ih =>
    intro t r h
    simp only [wqlText] at h
    obtain ⟨p, hp, h⟩ := Option.map_eq_some_iff.1 h
    simp only [Prod.mk.injEq] at h
    obtain ⟨rfl, rfl⟩ := h
    rw [ih _ _ hp]; simp [wqlQuoted]
  | case5 r' h1 h2 =>
    intro t r h
    rw [wqlText.eq_5 _ (fun x e => h1 x e) (fun x e => h2 x e)] at h
    cases h
  | case6 c r' h1 h2 h3 h4 ih =>
    intro t r h
    rw [wqlText.eq_6 _ _ h1 h2 h3 h4] at h
    obtain ⟨p, hp, h⟩ := Option.map_eq_some_iff.1 h
    simp only [Prod.mk.injEq] at h
    obtain ⟨rfl, rfl⟩ := h
    rw [ih _ _ hp]
    have : ¬ (c = '"' ∨ c = '\\') := by
      rintro (rfl | rfl)
      · exact h1 rfl
      · exact h4 rfl
    simp [wqlQuoted, this]

theorem likeToks_set : ∀ (cs p acc : List Char), ']' ∉ cs → likeToks (cs ++ ']' :: p) (some acc) = (likeToks p none).map (.set (acc ++ cs) :: ·)
  | [], p, acc, _ => by simp [likeToks]
  | c :: cs, p, acc, h => by
    have hc : c ≠ ']' := fun e => h (by simp [e])
    rw [List.cons_append, likeToks, if_neg hc, likeToks_set cs p _ fun hm => h (by simp [hm])]
    simp

theorem like_toks {W : WqlLib} {p s : List Char} (h : Like W p s) : ∃ toks, likeToks p none = some toks ∧ likeMatch W toks s = true := by
  induction h with
  | nil => exact ⟨[], rfl, by simp [likeMatch]⟩
  | any s h ih =>
    obtain ⟨toks, h1, h2⟩ := ih
    exact ⟨.any :: toks, by simp [likeToks, h1], (likeMatch_any W _ _).2 ⟨s, _, rfl, h2⟩⟩
  | one c h ih =>
    obtain ⟨toks, h1, h2⟩ := ih
    exact ⟨.one :: toks, by simp [likeToks, h1], by simp [likeMatch, h2]⟩
  | @set p t cs c hc hs h ih =>
    obtain ⟨toks, h1, h2⟩ := ih
    refine ⟨.set cs :: toks, ?_, by simp [likeMatch, h2, hs]⟩
    rw [likeToks]
    simp only [show ('[' : Char) ≠ '%' by decide, show ('[' : Char) ≠ '_' by decide, if_false, if_true]
    rw [likeToks_set cs p [] hc, h1]; simp
  | @lit p t a c ha hs h ih =>
    obtain ⟨toks, h1, h2⟩ := ih
    exact ⟨.lit a :: toks, by simp [likeToks, h1, ha], by simp [likeMatch, h2, hs]⟩

theorem toks_like {W : WqlLib} : ∀ (p : List Char) (o : Option (List Char)) (toks : List LikeTok), likeToks p o = some toks →
    match o with
    | none => ∀ s, likeMatch W toks s = true → Like W p s
    | some acc => ∃ cs q toks', p = cs ++ ']' :: q ∧ ']' ∉ cs ∧ toks = .set (acc ++ cs) :: toks' ∧ ∀ s, likeMatch W toks' s = true → Like W q s
  | [], none, toks, h => by
    simp only [likeToks, Option.some.injEq] at h
    subst h
    intro s hs
    cases s with
    | nil => exact .nil
    | cons c s => simp [likeMatch] at hs
  | [], some acc, toks, h => by simp [likeToks] at h
  | c :: p, some acc, toks, h => by
    rw [likeToks] at h
    split at h
    · rename_i hc
      subst hc
      obtain ⟨ts, h1, rfl⟩ := Option.map_eq_some_iff.1 h
      exact ⟨[], p, ts, rfl, by simp, by simp, toks_like p none ts h1⟩
    · rename_i hc
      obtain ⟨cs, q, ts, rfl, h2, rfl, h3⟩ := toks_like p (some (acc ++ [c])) toks h
      exact ⟨c :: cs, q, ts, rfl, by simp [h2, Ne.symm hc], by simp, h3⟩
  | c :: p, none, toks, h => by
    rw [likeToks] at h
    intro s hs
    split at h
    · rename_i hc
      subst hc
      obtain ⟨ts, h1, rfl⟩ := Option.map_eq_some_iff.1 h
      obtain ⟨a, b, rfl, hb⟩ := (likeMatch_any W _ _).1 hs
      exact .any a (toks_like p none ts h1 b hb)
    · rename_i n1
      split at h
      · rename_i hc
        subst hc
        obtain ⟨ts, h1, rfl⟩ := Option.map_eq_some_iff.1 h
        cases s with
        | nil => simp [likeMatch] at hs
        | cons x s => rw [likeMatch] at hs; exact .one x (toks_like p none ts h1 s hs)
      · rename_i n2
        split at h
        · rename_i hc
          subst hc
          obtain ⟨cs, q, ts, rfl, h2, rfl, h3⟩ := toks_like p (some []) toks h
          cases s with
          | nil => simp [likeMatch] at hs
          | cons x s =>
            rw [likeMatch, Bool.and_eq_true] at hs
            exact .set h2 (by simpa using hs.1) (h3 s hs.2)
        · rename_i n3
          obtain ⟨ts, h1, rfl⟩ := Option.map_eq_some_iff.1 h
          cases s with
          | nil => simp [likeMatch] at hs
          | cons x s =>
            rw [likeMatch, Bool.and_eq_true] at hs
            exact .lit ⟨n1, n2, n3⟩ hs.1 (toks_like p none ts h1 s hs.2)

theorem wqlQuoted_append (s t : List Char) : wqlQuoted (s ++ t) = wqlQuoted s ++ wqlQuoted t := by
  induction s with
  | nil => rfl
  | cons c s ih => simp only [List.cons_append, wqlQuoted, ih]; split <;> simp

/-- **C133** What a search text means on Windows, for every text with a meaning: if it is some text `t` with its quotes and backslashes written with a backslash, the processes found are those whose command line
is like the pattern `%t%`; without such a reading the query is no single condition. If it is refused though it can be read, no command line is like the pattern. -/
theorem C133_pattern (W : WqlLib) (table : List WinProc) (search : List Char) :
    (∀ l, findWin W table search = some l → ∃ t, search = wqlQuoted t ∧
      ∀ i c, (i, c) ∈ l ↔ ∃ p ∈ table, (p.pid : Int) = i ∧ p.cmd = some c ∧ Like W ('%' :: t ++ ['%']) c) ∧
    (∀ t, search = wqlQuoted t → findWin W table search = none → ∀ c, ¬ Like W ('%' :: t ++ ['%']) c) := by
  constructor
  · intro l h
    unfold findWin at h
    split at h
    · rename_i t hq
      obtain ⟨toks, h1, rfl⟩ := Option.map_eq_some_iff.1 h
      have hs := wqlText_sound _ _ _ hq
      cases t with
      | nil => simp [wqlQuoted] at hs
      | cons x t =>
        simp only [wqlQuoted, List.cons_append] at hs
        have hx : x = '%' ∧ search ++ ['%', '"'] = wqlQuoted t ++ ['"'] := by
          split at hs
          · simp at hs
          · simp only [List.cons_append, List.cons.injEq] at hs; exact ⟨hs.1.symm, hs.2⟩
        obtain ⟨rfl, hs⟩ := hx
        have hs2 : search ++ ['%'] = wqlQuoted t := List.append_cancel_right (bs := ['"']) (by simpa using hs)
        rcases List.eq_nil_or_concat t with rfl | ⟨t', y, ht⟩
        · simp [wqlQuoted] at hs2
        · rw [List.concat_eq_append] at ht
          subst ht
          rw [wqlQuoted_append] at hs2
          have hy : y = '%' ∧ search = wqlQuoted t' := by
            simp only [wqlQuoted] at hs2
            split at hs2
            · rename_i hy
              have := List.append_inj_right' (s₁ := search) (s₂ := wqlQuoted t' ++ ['\\']) (t₁ := ['%']) (t₂ := [y]) (by simpa using hs2) rfl
              simp only [List.cons.injEq, and_true] at this
              subst this
              exact absurd hy (by decide)
            · have h1 := List.append_inj_right' hs2 rfl
              simp only [List.cons.injEq, and_true] at h1
              exact ⟨h1.symm, List.append_inj_left' hs2 rfl⟩
          obtain ⟨rfl, rfl⟩ := hy
          refine ⟨t', rfl, fun i c => ?_⟩
          rw [mem_winMatching]
          have key : likeMatch W toks c = true ↔ Like W ('%' :: t' ++ ['%']) c := by
            constructor
            · exact toks_like _ none toks h1 c
            · intro hl
              obtain ⟨toks2, g1, g2⟩ := like_toks hl
              rw [List.cons_append] at g1
              rw [h1] at g1
              simp only [Option.some.injEq] at g1
              rw [g1]; exact g2
          simp only [key]
    · cases h
  · rintro t rfl h c hl
    obtain ⟨toks, g1, g2⟩ := like_toks hl
    have e : '%' :: wqlQuoted t ++ ['%', '"'] = wqlQuoted ('%' :: t ++ ['%']) ++ ['"'] := by
      rw [wqlQuoted_append]
      simp [wqlQuoted]
    rw [findWin, e, wqlText_quoted] at h
    simp only [g1, Option.map_some, reduceCtorEq] at h

namespace Ex
/-- WMI, as far as ASCII letters go. -/
def wmi : WqlLib := ⟨fun a b => a.toLower = b.toLower, fun cs c => cs.contains c⟩
/-- A few processes; the first is the system's own, with no command line. -/
def winTable : List WinProc := [⟨4, none⟩, ⟨100, some "python tp_worker".toList⟩, ⟨200, some "notepad Tp-Worker.txt".toList⟩, ⟨300, some "python main.py".toList⟩]

example := C133_find_partial wmi winTable "python".toList (by unfold WqlPlain; decide)
example := C133_found_partial wmi winTable "worker".toList (by unfold WqlPlain; decide)
example : (findWin wmi winTable "python".toList).map (·.map (·.1)) = some [100, 300] := by decide +kernel
/-- A worker is looked for, an editor is found too: case and underscore. -/
example : (findWin wmi winTable "tp_worker".toList).map (·.map (·.1)) = some [100, 200] := by decide +kernel
/-- A search for nothing finds all. -/
example : (findWin wmi winTable []).map (·.map (·.1)) = some [100, 200, 300] := by decide +kernel
/-- a set -/
example : (findWin wmi winTable "tp[_-]worker".toList).map (·.map (·.1)) = some [100, 200] := by decide +kernel
/-- a quote ends the string: no such query -/
example : findWin wmi winTable "a\"b".toList = none := by decide +kernel
example := (C133_pattern wmi winTable "tp[_-]work%".toList).1 _ (by rfl)
/-- the text `[` read as a pattern is an open set -/
example := (C133_pattern wmi winTable "[".toList).2 "[".toList (by rfl) (by decide +kernel)
/-- a path with its backslashes doubled -/
example : (findWin wmi [⟨1, some "C:\\py.exe".toList⟩, ⟨2, some "C:/py.exe".toList⟩] (wqlQuoted "c:\\py".toList)).map (·.map (·.1)) = some [1] := by decide +kernel
example := C133_fails_case wmi 'a' 'A' (by decide) (by unfold WqlPlain; decide) (by decide) 7
example := C133_fails_underscore wmi (by simp [wmi]) "tp".toList "worker".toList (by unfold WqlPlain; decide) (by unfold WqlPlain; decide) '-' (by decide) 7
example := C133_fails_kill wmi winTable winTable (fun _ => .ok ()) (fun _ => rfl) "tp_worker".toList ⟨_, List.mem_cons_of_mem _ (List.mem_cons_self ..), by simp⟩
example : (killWin wmi [] winTable winTable (fun _ => .ok ()) "tp_worker".toList).map (·.1) = some [100, 200, 300] := by decide +kernel
example := C133_kill_partial wmi winTable winTable "worker".toList (by unfold WqlPlain; decide) (fun _ => .ok ()) []
example := (C133_platform wmi (utf8 (psOutput 4 Ex.procs)) winTable "vi".toList).2.2 4 Ex.procs (by unfold PsProc.ok; decide) rfl (by decide)
  (by rw [← isIn_iff]; decide +kernel)
end Ex
end Verif
