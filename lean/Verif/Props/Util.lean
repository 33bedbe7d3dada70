import Verif.Model.Util
import Verif.Proof.Stdio
import Verif.Props.Address
/-!
# C64, C80, C81: processes and ports
-/
namespace Verif

/-! ## Specification -/

/-- The text occurs in the other. -/
def Occurs (search s : List Char) : Prop := ∃ a b, s = a ++ search ++ b

/-- A line of `ps`: the number, right-aligned, a space, the command line. -/
def psLine (pad pid : Nat) (cmd : List Char) : List Char := List.replicate pad ' ' ++ (Nat.toDigits 10 pid ++ ' ' :: cmd)

/-- The header. -/
def psHeader (pad : Nat) : List Char := List.replicate pad ' ' ++ "PID COMMAND".toList

/-- A process of the listing: padding, pid, command line. -/
structure PsProc where
  pad : Nat
  pid : Nat
  cmd : List Char
  deriving DecidableEq, Repr

/-- What `ps` prints. -/
def psOutput (pad : Nat) (procs : List PsProc) : List Char := psHeader pad ++ '\n' :: procs.flatMap fun p => psLine p.pad p.pid p.cmd ++ ['\n']

/-- Command lines have no newlines, pids are numbers of the system. -/
def PsProc.ok (p : PsProc) : Prop := '\n' ∉ p.cmd ∧ p.pid < 2 ^ 32

/-! ## Lemmas on text -/

theorem isPrefixOf_iff {a b : List Char} : a.isPrefixOf b = true ↔ ∃ r, b = a ++ r := by
  rw [List.isPrefixOf_iff_prefix]
  exact ⟨fun ⟨r, h⟩ => ⟨r, h.symm⟩, fun ⟨r, h⟩ => ⟨r, h.symm⟩⟩

theorem isIn_iff (search s : List Char) : isIn search s = true ↔ Occurs search s := by
  induction s with
  | nil =>
    rw [isIn, isPrefixOf_iff]
    constructor
    · rintro ⟨r, h⟩; exact ⟨[], r, by simpa using h⟩
    · rintro ⟨a, b, h⟩
      simp at h
      exact ⟨[], by simp [h]⟩
  | cons c r ih =>
    rw [isIn, Bool.or_eq_true, ih, isPrefixOf_iff]
    constructor
    · rintro (⟨b, h⟩ | ⟨a, b, h⟩)
      · exact ⟨[], b, h⟩
      · exact ⟨c :: a, b, by simp [h]⟩
    · rintro ⟨a, b, h⟩
      cases a with
      | nil => exact .inl ⟨b, h⟩
      | cons x a =>
        simp only [List.cons_append, List.cons.injEq] at h
        exact .inr ⟨a, b, h.2⟩

theorem splitNl_line (l r : List Char) (h : '\n' ∉ l) (cur : List Char) : splitNl (l ++ '\n' :: r) cur = (cur ++ l) :: splitNl r [] := by
  induction l generalizing cur with
  | nil => simp [splitNl]
  | cons c l ih =>
    simp only [List.mem_cons, not_or] at h
    simp only [List.cons_append, splitNl, if_neg (Ne.symm h.1)]
    rw [ih h.2]
    simp

theorem dropWhile_replicate_append {α} (p : α → Bool) (x : α) (hx : p x = true) (n : Nat) (l : List α) : (List.replicate n x ++ l).dropWhile p = l.dropWhile p := by
  induction n with
  | zero => rfl
  | succ n ih => simp [List.replicate_succ, hx, ih]

theorem takeWhile_stop {α} (p : α → Bool) (a : List α) (x : α) (b : List α) (ha : ∀ c ∈ a, p c = true) (hx : p x = false) :
    (a ++ x :: b).takeWhile p = a ∧ (a ++ x :: b).dropWhile p = x :: b := by
  induction a with
  | nil => simp [hx]
  | cons c a ih =>
    have := ih fun d hd => ha d (by simp [hd])
    simp [ha c (by simp), this]

theorem digit_facts (d : Nat) (h : d < 10) : isUniDigit (Nat.digitChar d) = true ∧ isPySpace (Nat.digitChar d) = false ∧ Nat.digitChar d ≠ ' ' ∧ Nat.digitChar d ≠ '\n' ∧
    Nat.digitChar d ≠ '-' ∧ Nat.digitChar d ≠ '+' ∧ Nat.digitChar d ≠ '_' ∧ Nat.digitChar d ≠ ':' := by
  have : ∀ d : Fin 10, isUniDigit (Nat.digitChar d) = true ∧ isPySpace (Nat.digitChar d) = false ∧ Nat.digitChar d ≠ ' ' ∧ Nat.digitChar d ≠ '\n' ∧
      Nat.digitChar d ≠ '-' ∧ Nat.digitChar d ≠ '+' ∧ Nat.digitChar d ≠ '_' ∧ Nat.digitChar d ≠ ':' := by decide +kernel
  exact this ⟨d, h⟩

theorem toDigits_facts (n : Nat) (c : Char) (h : c ∈ Nat.toDigits 10 n) : isUniDigit c = true ∧ isPySpace c = false ∧ c ≠ ' ' ∧ c ≠ '\n' ∧ c ≠ '-' ∧ c ≠ '+' ∧ c ≠ '_' ∧ c ≠ ':' := by
  obtain ⟨d, hd, rfl⟩ := mem_toDigits (by omega) (by omega) n c h
  exact digit_facts d hd

theorem toDigits_ne_nil (n : Nat) : Nat.toDigits 10 n ≠ [] := by
  have := Nat.length_toDigits_pos (b := 10) (n := n)
  intro h
  rw [h] at this
  simp at this

theorem intDigits_all (d : List Char) (hne : d ≠ []) (h : ∀ c ∈ d, isUniDigit c = true ∧ c ≠ '_') : intDigits d = some d := by
  induction d with
  | nil => exact absurd rfl hne
  | cons c d ih =>
    cases d with
    | nil => simp [intDigits, (h c (by simp)).1]
    | cons x d =>
      have hx := h x (by simp)
      have := ih (by simp) fun y hy => h y (by simp only [List.mem_cons] at hy ⊢; exact .inr hy)
      rw [intDigits]
      · simp [(h c (by simp)).1, this]
      · simp
      · rintro r h'
        simp only [List.cons.injEq] at h'
        exact absurd h'.1 hx.2

theorem dropWhile_id {α} {p : α → Bool} {l : List α} (h : ∀ c ∈ l, p c = false) : l.dropWhile p = l := by
  cases l with
  | nil => rfl
  | cons c l => simp [h c (by simp)]

theorem pyStrip_id {l : List Char} (h : ∀ c ∈ l, isPySpace c = false) : pyStrip l = l := by
  rw [pyStrip, pyLstrip, dropWhile_id h, dropWhile_id (by simpa using h), List.reverse_reverse]

theorem pyInt_digits (n : Nat) (hn : n < 2 ^ 32) : pyInt (Nat.toDigits 10 n) = .ok n := by
  have hs := pyStrip_id fun c hc => (toDigits_facts n c hc).2.1
  have hi := intDigits_all _ (toDigits_ne_nil n) fun c hc => ⟨(toDigits_facts n c hc).1, (toDigits_facts n c hc).2.2.2.2.2.2.1⟩
  have hl : (Nat.toDigits 10 n).length ≤ 10 := (Nat.length_toDigits_le_iff (by omega) (by omega)).2 (by omega)
  have ho : intOfDigits (Nat.toDigits 10 n) = .ok n := by
    rw [intOfDigits, if_neg (by omega), foldl_toDigits]
  unfold pyInt
  rw [hs]
  split
  · rename_i r he
    exact absurd rfl (toDigits_facts n '-' (by rw [he]; simp)).2.2.2.2.1
  · rename_i r he
    exact absurd rfl (toDigits_facts n '+' (by rw [he]; simp)).2.2.2.2.2.1
  · simp only [hi, ho]
    rfl

theorem psLine_parts (pad pid : Nat) (cmd : List Char) : partitionSp (pyLstrip (psLine pad pid cmd)) = (Nat.toDigits 10 pid, cmd) := by
  have h1 : pyLstrip (psLine pad pid cmd) = Nat.toDigits 10 pid ++ ' ' :: cmd := by
    rw [pyLstrip, psLine, dropWhile_replicate_append _ _ (by decide)]
    cases hd : Nat.toDigits 10 pid with
    | nil => exact absurd hd (toDigits_ne_nil pid)
    | cons c d =>
      have := (toDigits_facts pid c (by rw [hd]; simp)).2.1
      simp [this]
  have := takeWhile_stop (fun c => decide (c ≠ ' ')) (Nat.toDigits 10 pid) ' ' cmd (fun c hc => by simpa using (toDigits_facts pid c hc).2.2.1) (by simp)
  rw [h1, partitionSp, this.1, this.2]
  rfl

theorem psHeader_parts (pad : Nat) : partitionSp (pyLstrip (psHeader pad)) = ("PID".toList, "COMMAND".toList) := by
  rw [pyLstrip, psHeader, dropWhile_replicate_append _ _ (by decide)]
  decide +kernel

theorem psLine_nl (p : PsProc) (h : p.ok) : '\n' ∉ psLine p.pad p.pid p.cmd := by
  intro hm
  simp only [psLine, List.mem_append, List.mem_replicate, List.mem_cons] at hm
  rcases hm with h1 | h1 | h1 | h1
  · exact absurd h1.2 (by decide)
  · exact absurd rfl (toDigits_facts _ _ h1).2.2.2.1
  · exact absurd h1 (by decide)
  · exact h.1 h1

theorem psHeader_nl (pad : Nat) : '\n' ∉ psHeader pad := by
  intro hm
  simp only [psHeader, List.mem_append, List.mem_replicate] at hm
  rcases hm with h1 | h1
  · exact absurd h1.2 (by decide)
  · revert h1; decide

theorem splitNl_procs (procs : List PsProc) (h : ∀ p ∈ procs, p.ok) :
    splitNl (procs.flatMap fun p => psLine p.pad p.pid p.cmd ++ ['\n']) [] = procs.map (fun p => psLine p.pad p.pid p.cmd) ++ [[]] := by
  induction procs with
  | nil => rfl
  | cons p ps ih =>
    simp only [List.flatMap_cons, List.append_assoc, List.map_cons, List.cons_append]
    rw [splitNl_line _ _ (psLine_nl p (h p (by simp))), List.nil_append, List.nil_append, ih fun q hq => h q (by simp [hq])]

theorem splitNl_output (pad : Nat) (procs : List PsProc) (h : ∀ p ∈ procs, p.ok) :
    splitNl (psOutput pad procs) [] = psHeader pad :: (procs.map (fun p => psLine p.pad p.pid p.cmd) ++ [[]]) := by
  rw [psOutput, splitNl_line _ _ (psHeader_nl pad), splitNl_procs procs h]
  rfl

theorem findLines_procs (search : List Char) (hne : search ≠ []) (procs : List PsProc) (h : ∀ p ∈ procs, p.ok) :
    findLines search (procs.map (fun p => psLine p.pad p.pid p.cmd) ++ [[]]) =
      .ok ((procs.filter fun p => isIn search p.cmd).map fun p => ((p.pid : Int), psLine p.pad p.pid p.cmd)) := by
  induction procs with
  | nil =>
    have : isIn search [] = false := by
      cases search with
      | nil => exact absurd rfl hne
      | cons c r => rfl
    simp [findLines, pyLstrip, partitionSp, this]
  | cons p ps ih =>
    have ih := ih fun q hq => h q (by simp [hq])
    simp only [List.map_cons, List.cons_append, findLines, psLine_parts]
    rw [pyInt_digits p.pid (h p (by simp)).2, ih]
    cases hi : isIn search p.cmd <;> simp [hi]

/-! ## C64 -/

/-- **C64** (`find_procs`) For every listing and every search text that is not empty and not part of the header's "COMMAND": exactly the processes with the text in their command line are
found, in order, each with its pid. -/
theorem C64_find_partial (pad : Nat) (procs : List PsProc) (h : ∀ p ∈ procs, p.ok) (search : List Char) (hne : search ≠ []) (hh : ¬ Occurs search "COMMAND".toList)
    (f : PsProc → Bool) (hf : ∀ p, f p = true ↔ Occurs search p.cmd) :
    findProcs (utf8 (psOutput pad procs)) search = .ok ((procs.filter f).map fun p => ((p.pid : Int), psLine p.pad p.pid p.cmd)) := by
  have hfe : (fun p : PsProc => isIn search p.cmd) = f := by
    funext p
    rw [Bool.eq_iff_iff, isIn_iff, hf]
  have hi : isIn search "COMMAND".toList = false := by
    rw [Bool.eq_false_iff]
    exact fun h => hh ((isIn_iff _ _).1 h)
  rw [findProcs, pyDecode_utf8]
  simp only [splitNl_output pad procs h]
  rw [findLines, psHeader_parts]
  simp only [hi]
  rw [findLines_procs search hne procs h, hfe]
  rfl

/-- **C64** Output of `ps` that is not UTF-8 (process names may be any bytes) makes the search raise UnicodeDecodeError (a ValueError), and `kill_procs` kill nobody. -/
theorem C64_undecodable (ps ps' : Bytes) (search namePrefix : List Char) (kill : Int → Except Exc Unit) (h : ps.toByteArray.utf8Decode? = none) :
    findProcs ps search = .error .valueError ∧ killProcs namePrefix ps ps' kill search = ([], .error .valueError) := by
  have h1 : ∀ x, findProcs ps x = .error .valueError := fun x => by simp only [findProcs, pyDecode, h]
  exact ⟨h1 _, by simp only [killProcs, h1]⟩

theorem bad_ps : ByteArray.utf8Decode? (List.toByteArray [0xFF, 10]) = none := by
  rw [ByteArray.utf8Decode?, ByteArray.utf8Decode?.go]
  have h : ByteArray.utf8DecodeChar? (List.toByteArray [0xFF, 10]) 0 = none := by decide +kernel
  split
  · split
    · rfl
    · rename_i h'; rw [h] at h'; cases h'
  · rename_i h'; exact absurd (by decide) h'
/-- A byte that starts no character, where the name of a process would be. -/
example (search namePrefix : List Char) := C64_undecodable [0xFF, 10] [] search namePrefix (fun _ => .ok ()) bad_ps

/-- **C64 fails** for texts that are part of the word COMMAND in the header, the empty one among them: ValueError, whatever processes run. -/
theorem C64_fails_header (pad : Nat) (procs : List PsProc) (h : ∀ p ∈ procs, p.ok) (search : List Char) (hh : Occurs search "COMMAND".toList) :
    findProcs (utf8 (psOutput pad procs)) search = .error .valueError := by
  rw [findProcs, pyDecode_utf8]
  simp only [splitNl_output pad procs h]
  rw [findLines, psHeader_parts]
  simp only [(isIn_iff _ _).2 hh, if_true]
  have : pyInt "PID".toList = .error .valueError := by decide +kernel
  rw [this]

theorem C64_fails_empty (pad : Nat) (procs : List PsProc) (h : ∀ p ∈ procs, p.ok) : findProcs (utf8 (psOutput pad procs)) [] = .error .valueError :=
  C64_fails_header pad procs h [] ⟨[], "COMMAND".toList, rfl⟩

/-- Two processes. -/
def Ex.procs : List PsProc := [⟨3, 7, "python tp_worker".toList⟩, ⟨1, 100, "vi notes".toList⟩]

example : ∀ p ∈ Ex.procs, p.ok := by unfold PsProc.ok; decide
example : findProcs (utf8 (psOutput 4 Ex.procs)) "vi".toList = .ok [(100, " 100 vi notes".toList)] := by decide +kernel

/-- **C64 fails** (`kill_procs`): the search text is ignored, for all arguments; and a process is killed whose command line does not contain it. -/
theorem C64_fails (np ps₁ ps₂ kill) (search search' : List Char) : killProcs np ps₁ ps₂ kill search = killProcs np ps₁ ps₂ kill search' := rfl

theorem C64_fails_kill : ∃ np ps search cmd, ¬ Occurs search cmd ∧ ps = utf8 (psOutput 4 [⟨3, 7, cmd⟩]) ∧
    (killProcs np ps ps (fun _ => .ok ()) search).1 = [7] := by
  refine ⟨"tp_".toList, _, "vi".toList, "python tp_worker".toList, ?_, rfl, by decide +kernel⟩
  rw [← isIn_iff]
  decide +kernel

/-- **C64 fails**: with the default prefix (empty) `kill_procs` raises, whatever is searched and whatever runs. -/
theorem C64_fails_default (pad : Nat) (procs : List PsProc) (h : ∀ p ∈ procs, p.ok) (ps₂ kill search) :
    killProcs [] (utf8 (psOutput pad procs)) ps₂ kill search = ([], .error .valueError) := by
  rw [killProcs, C64_fails_empty pad procs h]

theorem killAll_sub (kill) (l : List (Int × List Char)) : (killAll kill l).1 <+: l.map (·.1) := by
  induction l with
  | nil => simp [killAll]
  | cons p l ih =>
    obtain ⟨pid, line⟩ := p
    rw [killAll]
    cases kill pid with
    | error e => simp
    | ok u => simpa using ih

theorem killAll_ok (kill : Int → Except Exc Unit) (l : List (Int × List Char)) (h : ∀ p ∈ l, kill p.1 = .ok ()) : killAll kill l = (l.map (·.1), none) := by
  induction l with
  | nil => rfl
  | cons p l ih =>
    obtain ⟨pid, line⟩ := p
    rw [killAll, ih fun q hq => h q (by simp [hq])]
    have := h (pid, line) (by simp)
    simp only at this
    rw [this]
    rfl

/-- What is right about `kill_procs` when the search text is the prefix (usable as above): only processes are killed that have it in their command line after the pause; if every kill
succeeds and some were there before, all of them, and exactly they are returned. -/
theorem C64_kill_partial (pad₁ pad₂ : Nat) (procs₁ procs₂ : List PsProc) (h₁ : ∀ p ∈ procs₁, p.ok) (h₂ : ∀ p ∈ procs₂, p.ok) (search : List Char) (hne : search ≠ [])
    (hh : ¬ Occurs search "COMMAND".toList) (kill : Int → Except Exc Unit) :
    (∀ i ∈ (killProcs search (utf8 (psOutput pad₁ procs₁)) (utf8 (psOutput pad₂ procs₂)) kill search).1, ∃ p ∈ procs₂, (p.pid : Int) = i ∧ Occurs search p.cmd) ∧
    ((∃ p ∈ procs₁, Occurs search p.cmd) → (∀ i, kill i = .ok ()) →
      ∃ l, killProcs search (utf8 (psOutput pad₁ procs₁)) (utf8 (psOutput pad₂ procs₂)) kill search = (l.map (·.1), .ok l) ∧
        ∀ i line, (i, line) ∈ l ↔ ∃ p ∈ procs₂, Occurs search p.cmd ∧ (p.pid : Int) = i ∧ psLine p.pad p.pid p.cmd = line) := by
  have e1 := C64_find_partial pad₁ procs₁ h₁ search hne hh _ fun p => isIn_iff search p.cmd
  have e2 := C64_find_partial pad₂ procs₂ h₂ search hne hh _ fun p => isIn_iff search p.cmd
  rw [killProcs, e1]
  generalize hl1 : (procs₁.filter fun p => isIn search p.cmd).map (fun p => ((p.pid : Int), psLine p.pad p.pid p.cmd)) = l1
  have hl2 : ∀ i line, (i, line) ∈ (procs₂.filter fun p => isIn search p.cmd).map (fun p => ((p.pid : Int), psLine p.pad p.pid p.cmd)) ↔
      ∃ p ∈ procs₂, Occurs search p.cmd ∧ (p.pid : Int) = i ∧ psLine p.pad p.pid p.cmd = line := by
    intro i line
    simp only [List.mem_map, List.mem_filter, isIn_iff, Prod.mk.injEq, and_assoc]
  generalize (procs₂.filter fun p => isIn search p.cmd).map (fun p => ((p.pid : Int), psLine p.pad p.pid p.cmd)) = l2 at e2 hl2
  cases l1 with
  | nil =>
    refine ⟨by simp, fun ⟨p, hp, ho⟩ => ?_⟩
    have : p ∈ procs₁.filter fun p => isIn search p.cmd := List.mem_filter.2 ⟨hp, (isIn_iff _ _).2 ho⟩
    rw [List.map_eq_nil_iff.1 hl1] at this
    simp at this
  | cons x l1 =>
    simp only [e2]
    cases l2 with
    | nil => exact ⟨by simp, fun _ _ => ⟨[], rfl, hl2⟩⟩
    | cons y l2 =>
      refine ⟨fun i hi => ?_, fun _ hk => ⟨y :: l2, ?_, hl2⟩⟩
      · have hsub := (killAll_sub kill (y :: l2)).subset
        have hi : i ∈ (killAll kill (y :: l2)).1 := by
          simp only at hi
          revert hi
          cases killAll kill (y :: l2) with
          | mk k e => cases e <;> exact id
        obtain ⟨⟨j, line⟩, hm, rfl⟩ := List.mem_map.1 (hsub hi)
        obtain ⟨p, hp, ho, h3, -⟩ := (hl2 j line).1 hm
        exact ⟨p, hp, h3, ho⟩
      · simp only
        rw [killAll_ok kill _ fun p _ => hk p.1]

example : (killProcs "tp_".toList (utf8 (psOutput 4 Ex.procs)) (utf8 (psOutput 4 Ex.procs)) (fun _ => .ok ()) "tp_".toList).1 = [7] := by decide +kernel

/-- A process that ends between the listing and its turn stops the killing: the later ones live on. -/
example : killProcs "tp_".toList (utf8 (psOutput 4 [⟨3, 7, "tp_a".toList⟩, ⟨3, 8, "tp_b".toList⟩])) (utf8 (psOutput 4 [⟨3, 7, "tp_a".toList⟩, ⟨3, 8, "tp_b".toList⟩]))
    (fun p => if p = 7 then .error (.other "ProcessLookupError") else .ok ()) [] = ([], .error (.other "ProcessLookupError")) := by decide +kernel

/-! ## C80 -/

/-- A pid that stands for one other process: positive, within the system's type, not the own one. -/
def OnePid (G : OsGroups) (pid : Int) : Prop := 0 < pid ∧ pid ≤ 2147483647 ∧ pid ≠ G.self

theorem killPid_one {G : OsGroups} {pid : Int} (h : OnePid G pid) (t : OsTable) :
    killPid G t pid = match t pid with
      | .running => (fun q => if q = pid then .zombie else t q, some (.ok ()))
      | .zombie => (t, some (.ok ()))
      | .gone => (t, some (.error (.other "ProcessLookupError")))
      | .foreign => (t, some (.error (.other "PermissionError"))) := by
  obtain ⟨h0, h1, h2⟩ := h
  have hr : ¬ (pid < -2147483648 ∨ 2147483647 < pid) := by omega
  have h2' : ¬ G.self = pid := fun h => h2 h.symm
  cases hp : t pid
  · simp only [killPid, hr, h0, if_true, if_false, List.any_cons, List.any_nil, hp, h2', decide_false, Bool.or_false]
    simp only [true_or, decide_true, if_true, Bool.false_eq_true, if_false, Prod.mk.injEq, and_true]
    funext q
    by_cases hq : q = pid
    · subst hq; simp [OsTable.signal, hp]
    · simp [OsTable.signal, hq]
  · simp only [killPid, hr, h0, if_true, if_false, List.any_cons, List.any_nil, hp, h2', decide_false, Bool.or_false]
    simp only [or_true, decide_true, if_true, Bool.false_eq_true, if_false, Prod.mk.injEq, and_true]
    funext q
    by_cases hq : q = pid
    · subst hq; simp [OsTable.signal, hp]
    · simp [OsTable.signal, hq]
  all_goals simp [killPid, hr, h0, hp]

theorem cleanLoop_spec (G : OsGroups) (procs : List (String × Int)) : ∀ (t : OsTable) (fs : List String), (∀ p ∈ procs, OnePid G p.2) → (∀ p ∈ procs, t p.2 = .running ∨ t p.2 = .gone) → (procs.map (·.2)).Nodup →
    (cleanLoop G t procs fs).2 = some (.ok (fs ++ (procs.filter fun p => t p.2 = .running).map (·.1))) ∧
    ∀ i, (cleanLoop G t procs fs).1 i = if i ∈ procs.map (·.2) ∧ t i = .running then .zombie else t i := by
  induction procs with
  | nil => intro t fs _ _ _; simp [cleanLoop]
  | cons p procs ih =>
    obtain ⟨name, pid⟩ := p
    intro t fs ho h hn
    simp only [List.map_cons, List.nodup_cons] at hn
    have hrest : ∀ q ∈ procs, q.2 ≠ pid := fun q hq he => hn.1 (by rw [← he]; exact List.mem_map_of_mem hq)
    have hk := killPid_one (ho (name, pid) (by simp)) t
    rcases h (name, pid) (by simp) with hp | hp
    · simp only at hp hk
      rw [hp] at hk
      simp only [cleanLoop, assertPidsDead, hk, List.nil_append, List.cons_ne_nil, if_false, if_true]
      obtain ⟨h1, h2⟩ := ih (fun p => if p = pid then .zombie else t p) (fs ++ [name]) (fun q hq => ho q (by simp [hq]))
        (fun q hq => by simp only [if_neg (hrest q hq)]; exact h q (by simp [hq])) hn.2
      refine ⟨?_, fun i => ?_⟩
      · rw [h1]
        have : (procs.filter fun q => decide ((if q.2 = pid then OsState.zombie else t q.2) = .running)) = procs.filter fun q => decide (t q.2 = .running) := by
          apply List.filter_congr
          intro q hq
          rw [if_neg (hrest q hq)]
        rw [this]
        simp [hp]
      · rw [h2]
        by_cases hi : i = pid
        · subst hi; simp only [hn.1, false_and, if_false, if_true, List.map_cons, List.mem_cons, true_or, hp, and_self]
        · simp only [List.map_cons, List.mem_cons, hi, false_or, if_false]
    · simp only at hp hk
      rw [hp] at hk
      simp only [cleanLoop, assertPidsDead, hk]
      obtain ⟨h1, h2⟩ := ih t fs (fun q hq => ho q (by simp [hq])) (fun q hq => h q (by simp [hq])) hn.2
      have hos : isOsError (.other "ProcessLookupError") = true := by decide
      rw [hos]
      refine ⟨?_, fun i => ?_⟩
      · simp only [if_true]
        rw [h1]
        simp [hp]
      · simp only [if_true]
        rw [h2]
        by_cases hi : i = pid
        · subst hi; simp [hp]
        · simp only [List.map_cons, List.mem_cons, hi, false_or]

/-- **C80 (partial)** For every list of collected processes that run or are gone, with pids that stand for one other process each: at the end those that still run are killed, no other
process is touched, and unless the block itself raised, an AssertionError names exactly them (there is none if none runs). -/
theorem C80_partial (G : OsGroups) (t : OsTable) (procs : List (String × Int)) (exc : Bool) (ho : ∀ p ∈ procs, OnePid G p.2) (h : ∀ p ∈ procs, t p.2 = .running ∨ t p.2 = .gone)
    (hn : (procs.map (·.2)).Nodup) :
    (∀ i, (cleanerExit G t procs exc).1 i = if i ∈ procs.map (·.2) ∧ t i = .running then .zombie else t i) ∧
    (cleanerExit G t procs exc).2 = (if exc = false ∧ ∃ p ∈ procs, t p.2 = .running then .failed ((procs.filter fun p => t p.2 = .running).map (·.1)) else .passes) := by
  obtain ⟨h1, h2⟩ := cleanLoop_spec G procs t [] ho h hn
  rw [cleanerExit]
  cases hc : cleanLoop G t procs [] with
  | mk t' fs =>
    rw [hc] at h1 h2
    simp only [List.nil_append] at h1 h2
    subst h1
    simp only
    have hex : (procs.filter fun p => t p.2 = .running).map (·.1) ≠ [] ↔ ∃ p ∈ procs, t p.2 = .running := by
      simp [List.filter_eq_nil_iff]
    refine ⟨fun i => ?_, ?_⟩
    · split <;> exact h2 i
    · by_cases he : exc = false
      · by_cases hx : ∃ p ∈ procs, t p.2 = .running
        · rw [if_pos ⟨hex.2 hx, he⟩, if_pos ⟨he, hx⟩]
        · rw [if_neg (fun h => hx (hex.1 h.1)), if_neg (fun h => hx h.2)]
      · rw [if_neg (fun h => he h.2), if_neg (fun h => he h.1)]

/-- What is in a cleaner: the names and pids of valid calls. -/
def Added : ProcArg × PidVal → Option (String × Int)
  | (.name s, .int i) => some (s, i)
  | (.name s, .bool b) => some (s, if b then 1 else 0)
  | (.proc s (.int i), _) => some (s, i)
  | (.proc s (.bool b), _) => some (s, if b then 1 else 0)
  | _ => none

theorem cleanerAdd_spec (procs : List (String × Int)) (a : ProcArg) (pid : PidVal) :
    (∀ p, Added (a, pid) = some p → cleanerAdd procs a pid = .ok (procs ++ [p])) ∧ (Added (a, pid) = none → ∃ e, cleanerAdd procs a pid = .error e ∧ e = if a = .other then .attributeError else .assertionError) := by
  cases a with
  | name s => cases pid <;> simp [Added, cleanerAdd, PidVal.toInt]
  | proc s p => cases p <;> simp [Added, cleanerAdd, PidVal.toInt]
  | other => cases pid <;> simp [Added, cleanerAdd]

/-- **C80** (the whole block) Whatever is given to `add`, in any number of calls: the calls up to the first invalid one collect their processes in order, the block ends with the exception
of the invalid one (AssertionError for a name without a pid, or a pid that is no int; AttributeError for an object without name and pid), and what was collected is cleaned up. -/
theorem C80_block (G : OsGroups) (t : OsTable) (exc : Bool) : ∀ (adds : List (ProcArg × PidVal)) (procs : List (String × Int)),
    (∀ l, adds.map Added = l.map some → cleanerBlock G t exc adds procs = ((cleanerExit G t (procs ++ l) exc).1, (cleanerExit G t (procs ++ l) exc).2, none)) ∧
    (∀ pre a pid post l, adds = pre ++ (a, pid) :: post → pre.map Added = l.map some → Added (a, pid) = none →
      ∃ e, cleanerBlock G t exc adds procs = ((cleanerExit G t (procs ++ l) true).1, (cleanerExit G t (procs ++ l) true).2, some e) ∧ e = if a = .other then .attributeError else .assertionError) := by
  intro adds
  induction adds with
  | nil =>
    intro procs
    refine ⟨fun l hl => ?_, fun pre a pid post l h => by simp at h⟩
    have : l = [] := by simpa using hl.symm
    subst this
    simp [cleanerBlock]
  | cons x adds ih =>
    obtain ⟨b, q⟩ := x
    intro procs
    refine ⟨fun l hl => ?_, fun pre a pid post l h hpre hbad => ?_⟩
    · cases l with
      | nil => simp at hl
      | cons p l =>
        simp only [List.map_cons, List.cons.injEq] at hl
        rw [cleanerBlock, (cleanerAdd_spec procs b q).1 p hl.1]
        have := (ih (procs ++ [p])).1 l hl.2
        simpa using this
    · cases pre with
      | nil =>
        simp only [List.nil_append, List.cons.injEq] at h
        obtain ⟨h1, h2⟩ := h
        cases h1
        have : l = [] := by simpa using hpre.symm
        subst this
        obtain ⟨e, he, ha⟩ := (cleanerAdd_spec procs b q).2 hbad
        exact ⟨e, by rw [cleanerBlock, he]; simp, ha⟩
      | cons y pre =>
        simp only [List.cons_append, List.cons.injEq] at h
        obtain ⟨h1, h2⟩ := h
        subst h1
        cases l with
        | nil => simp at hpre
        | cons p l =>
          simp only [List.map_cons, List.cons.injEq] at hpre
          obtain ⟨e, he, ha⟩ := (ih (procs ++ [p])).2 pre a pid post l h2 hpre.2 hbad
          refine ⟨e, ?_, ha⟩
          rw [cleanerBlock, (cleanerAdd_spec procs b q).1 p hpre.1]
          simpa using he

namespace Ex
/-- We are process 5 in group 5, with 7 and 8; 9 is in another group. -/
def os : OsGroups := ⟨5, [1, 5, 7, 8, 9], fun q => if q = 1 then 1 else if q = 9 then 9 else 5⟩
end Ex

example : (cleanerExit Ex.os (fun i => if i = 7 then .running else .gone) [("a", 7), ("b", 8)] false).2 = .failed ["a"] := by decide
/-- C80_block: the third call has no pid; the block ends with AssertionError, and 7 is killed silently. -/
example : (cleanerBlock Ex.os (fun i => if i = 7 ∨ i = 9 then .running else .gone) false [(.proc "a" (.int 7), .none), (.name "b", .int 8), (.name "c", .none), (.name "d", .int 9)] []).2 =
    (.passes, some .assertionError) := by decide

/-- **C80 fails**: a process that has ended, but for which nobody has waited, is reported as not ended. -/
theorem C80_fails_zombie (G : OsGroups) (t : OsTable) (name : String) (pid : Int) (ho : OnePid G pid) (h : t pid = .zombie) : (cleanerExit G t [(name, pid)] false).2 = .failed [name] := by
  simp [cleanerExit, cleanLoop, assertPidsDead, killPid_one ho, h]

/-- **C80 fails**: a running process of another user is neither killed nor reported. -/
theorem C80_fails_foreign (G : OsGroups) (t : OsTable) (name : String) (pid : Int) (ho : OnePid G pid) (h : t pid = .foreign) : (cleanerExit G t [(name, pid)] false).2 = .passes ∧
    (cleanerExit G t [(name, pid)] false).1 pid = .foreign := by
  simp [cleanerExit, cleanLoop, assertPidsDead, killPid_one ho, h, isOsError]

/-- **C80 fails** for the pids 0 and False, which `add` accepts: the whole process group is killed, the process itself included, instead of one process. -/
theorem C80_fails_group (G : OsGroups) (t : OsTable) (name : String) (pid : PidVal) (hp : pid = .int 0 ∨ pid = .bool false) (hs : G.self ∈ G.pids) (hr : t G.self = .running) (exc : Bool) :
    (cleanerBlock G t exc [(.name name, pid)] []).2 = (.died, none) ∧
    ∀ q ∈ G.pids, G.group q = G.group G.self → t q = .running → (cleanerBlock G t exc [(.name name, pid)] []).1 q = .zombie := by
  have hk : killPid G t 0 = (t.signal (fun q => G.affects 0 q), none) := by
    have hself : G.affects 0 G.self = true := by simp [OsGroups.affects, hs]
    have hany : (G.pids.filter (G.affects 0)).any (fun q => t q = .running ∨ t q = .zombie) = true := by
      rw [List.any_eq_true]
      exact ⟨G.self, List.mem_filter.2 ⟨hs, hself⟩, by simp [hr]⟩
    have hr' : ¬ ((0 : Int) < -2147483648 ∨ 2147483647 < (0 : Int)) := by omega
    simp only [killPid, hr', if_false, Int.lt_irrefl, hany, if_true, hself]
  have hb : cleanerBlock G t exc [(.name name, pid)] [] = (t.signal (fun q => G.affects 0 q), .died, none) := by
    rcases hp with rfl | rfl <;> simp [cleanerBlock, cleanerAdd, PidVal.toInt, cleanerExit, cleanLoop, assertPidsDead, hk]
  rw [hb]
  exact ⟨rfl, fun q hq hg hqr => by simp [OsTable.signal, OsGroups.affects, hq, hg, hqr]⟩

/-- **C80 fails** for the pid -1, which `add` accepts (some libraries use it for "not started"): every process we may signal is killed, except init and ourselves. -/
theorem C80_fails_all (G : OsGroups) (t : OsTable) (name : String) (exc : Bool) (q : Int) (hq : q ∈ G.pids) (h1 : q ≠ 1) (hs : q ≠ G.self) (hr : t q = .running) :
    (cleanerBlock G t exc [(.name name, .int (-1))] []).1 q = .zombie := by
  have haq : G.affects (-1) q = true := by simp [OsGroups.affects, hq, h1, hs]
  have hself : G.affects (-1) G.self = false := by simp [OsGroups.affects]
  have hk : killPid G t (-1) = (t.signal (fun q => G.affects (-1) q), some (.ok ())) := by
    have hany : (G.pids.filter (G.affects (-1))).any (fun q => t q = .running ∨ t q = .zombie) = true := by
      rw [List.any_eq_true]
      exact ⟨q, List.mem_filter.2 ⟨hq, haq⟩, by simp [hr]⟩
    have hr' : ¬ ((-1 : Int) < -2147483648 ∨ 2147483647 < (-1 : Int)) := by omega
    have h0 : ¬ (0 : Int) < -1 := by omega
    simp only [killPid, hr', if_false, h0, hany, if_true, hself, Bool.false_eq_true]
  have hb : (cleanerBlock G t exc [(.name name, .int (-1))] []).1 = t.signal (fun q => G.affects (-1) q) := by
    cases exc <;> simp [cleanerBlock, cleanerAdd, PidVal.toInt, cleanerExit, cleanLoop, assertPidsDead, hk]
  rw [hb]
  simp [OsTable.signal, haq, hr]

/-- **C80 fails** for an int that no pid can be: OverflowError comes out, even in place of the exception of the block, and no later process is killed. -/
theorem C80_fails_overflow (G : OsGroups) (t : OsTable) (name : String) (i : Int) (h : i < -2147483648 ∨ 2147483647 < i) (rest : List (String × Int)) (exc : Bool) :
    cleanerExit G t ((name, i) :: rest) exc = (t, .raised (.other "OverflowError")) := by
  have hk : killPid G t i = (t, some (.error (.other "OverflowError"))) := by simp only [killPid, h, if_true]
  have hos : isOsError (.other "OverflowError") = false := by decide
  simp [cleanerExit, cleanLoop, assertPidsDead, hk, hos]

/-- C80_fails_group, C80_fails_all: with 7, 8 and 9 running, 0 ends us with 7 and 8; -1 ends 7, 8 and 9 and is reported as one process. -/
example : (cleanerBlock Ex.os (fun _ => .running) false [(.name "a", .int 0)] []).2.1 = .died ∧ (cleanerBlock Ex.os (fun _ => .running) false [(.name "a", .int 0)] []).1 8 = .zombie ∧
    (cleanerBlock Ex.os (fun _ => .running) false [(.name "a", .int 0)] []).1 9 = .running ∧ (cleanerBlock Ex.os (fun _ => .running) false [(.name "a", .int (-1))] []).2.1 = .failed ["a"] ∧
    (cleanerBlock Ex.os (fun _ => .running) false [(.name "a", .int (-1))] []).1 9 = .zombie := by decide

/-! ## C81 -/

/-- **C81 fails** on Linux: whatever `netstat` prints, no port is ever listed. Either there is none in the output, or an exception is raised. -/
theorem C81_fails (out : Bytes) (ps : List PortInfo) (h : netstat false out = .ok ps) : ps = [] := by
  have hline : ∀ l p, linuxLine l = .ok p → p = none := by
    intro l p h
    unfold linuxLine at h
    simp only at h
    split at h
    · split at h
      · split at h <;> cases h
      · cases h; rfl
    · cases h; rfl
  have hl : ∀ ls ps, portLines linuxLine ls = .ok ps → ps = [] := by
    intro ls
    induction ls with
    | nil => intro ps h; cases h; rfl
    | cons l ls ih =>
      intro ps h
      rw [portLines] at h
      split at h
      · cases h
      · rename_i p hp
        split at h
        · cases h
        · rename_i ps' hps
          cases h
          rw [hline l p hp, ih ps' hps]
          rfl
  rw [netstat] at h
  split at h
  · cases h
  · exact hl _ _ h

/-- A line with a listening port raises AttributeError. -/
example : netstat false (utf8 "tcp        0      0 127.0.0.1:4242          0.0.0.0:*               LISTEN      77/python\n".toList) = .error .attributeError := by decide +kernel

/-- A word: not empty, no white space. -/
def Word (w : List Char) : Prop := w ≠ [] ∧ ∀ c ∈ w, isPySpace c = false

/-- White space within a line. -/
def Blank (b : List Char) : Prop := b ≠ [] ∧ ∀ c ∈ b, isPySpace c = true

/-- Words with white space before each. -/
def blankWords (l : List (List Char × List Char)) : List Char := l.flatMap fun p => p.1 ++ p.2

theorem splitWs_blank (b r cur : List Char) (hb : ∀ c ∈ b, isPySpace c = true) (hr : r ≠ []) : splitWs (b ++ r) cur true = splitWs r [] true := by
  induction b generalizing cur with
  | nil =>
    cases r with
    | nil => exact absurd rfl hr
    | cons c r => simp [splitWs]
  | cons c b ih =>
    simp only [List.cons_append, splitWs, hb c (by simp), if_true]
    exact ih [] fun x hx => hb x (by simp [hx])

theorem splitWs_word (w r cur : List Char) (hw : ∀ c ∈ w, isPySpace c = false) : splitWs (w ++ r) cur false = splitWs r (cur ++ w) false := by
  induction w generalizing cur with
  | nil => simp
  | cons c w ih =>
    simp only [List.cons_append, splitWs, hw c (by simp), Bool.false_eq_true, if_false]
    rw [ih _ fun x hx => hw x (by simp [hx])]
    simp

theorem splitWs_words (l : List (List Char × List Char)) (h : ∀ p ∈ l, Blank p.1 ∧ Word p.2) (cur : List Char) : splitWs (blankWords l) cur false = cur :: l.map (·.2) := by
  induction l generalizing cur with
  | nil => rfl
  | cons p l ih =>
    obtain ⟨b, w⟩ := p
    obtain ⟨⟨hb, hb'⟩, hw, hw'⟩ := h (b, w) (by simp)
    have ih := ih fun q hq => h q (by simp [hq])
    simp only at hb hb' hw hw'
    cases b with
    | nil => exact absurd rfl hb
    | cons c b =>
      cases w with
      | nil => exact absurd rfl hw
      | cons d w =>
        have e : blankWords ((c :: b, d :: w) :: l) = c :: (b ++ (d :: (w ++ blankWords l))) := by simp [blankWords]
        rw [e]
        simp only [splitWs, hb' c (by simp), if_true]
        rw [splitWs_blank _ _ _ (fun x hx => hb' x (by simp [hx])) (by simp)]
        simp only [splitWs, hw' d (by simp), Bool.false_eq_true, if_false]
        rw [splitWs_word _ _ _ (fun x hx => hw' x (by simp [hx])), ih]
        simp

theorem dropWhile_all {α} {p : α → Bool} {a b : List α} (h : ∀ c ∈ a, p c = true) : (a ++ b).dropWhile p = b.dropWhile p := by
  induction a with
  | nil => rfl
  | cons c a ih => simp [h c (by simp), ih fun x hx => h x (by simp [hx])]

theorem dropWhile_head {α} {p : α → Bool} {a b : List α} (hne : a ≠ []) (h : ∀ c ∈ a, p c = false) : (a ++ b).dropWhile p = a ++ b := by
  cases a with
  | nil => exact absurd rfl hne
  | cons c a => simp [h c (by simp)]

/-- White space around text that begins and ends with words is removed. -/
theorem pyStrip_around (a m z b : List Char) (wa wb : List Char) (ha : ∀ c ∈ a, isPySpace c = true) (hb : ∀ c ∈ b, isPySpace c = true) (hwa : Word wa) (hwb : Word wb)
    (h1 : m = wa ++ z) (z' : List Char) (h2 : m = z' ++ wb) : pyStrip (a ++ m ++ b) = m := by
  have e1 : pyLstrip (a ++ m ++ b) = m ++ b := by
    rw [pyLstrip, List.append_assoc, dropWhile_all ha, h1, List.append_assoc, dropWhile_head hwa.1 hwa.2]
  rw [pyStrip, e1, List.reverse_append, dropWhile_all (by simpa using hb), h2, List.reverse_append, dropWhile_head (by simpa using hwb.1) (by simpa using hwb.2)]
  simp

/-- An entry of `netstat -ano` on Windows. -/
structure WinPort where
  addr : List Char
  port : Nat
  foreign : List Char
  state : List Char
  pid : Nat

/-- The printed line: words with white space between. -/
def WinPort.line (e : WinPort) (b0 b1 b2 b3 b4 : List Char) : List Char :=
  b0 ++ "TCP".toList ++ b1 ++ (e.addr ++ ':' :: Nat.toDigits 10 e.port) ++ b2 ++ e.foreign ++ b3 ++ e.state ++ b4 ++ Nat.toDigits 10 e.pid

theorem rsplitColon_last (a p : List Char) (hp : ∀ c ∈ p, c ≠ ':') : rsplitColon (a ++ ':' :: p) = .ok (a, p) := by
  have := takeWhile_stop (fun c => decide (c ≠ ':')) p.reverse ':' a.reverse (fun c hc => by simpa using hp c (by simpa using hc)) (by simp)
  have e : (a ++ ':' :: p).reverse = p.reverse ++ ':' :: a.reverse := by simp
  rw [rsplitColon, if_pos (by simp), e, this.1, this.2]
  simp

/-- **C81** on Windows: each TCP line yields its port, with the address and the port number separated at the last colon, the state (LISTEN for LISTENING) and the pid. -/
theorem C81_windows_line (e : WinPort) (b0 b1 b2 b3 b4 b5 : List Char) (h0 : ∀ c ∈ b0, isPySpace c = true) (h1 : Blank b1) (h2 : Blank b2) (h3 : Blank b3) (h4 : Blank b4)
    (h5 : ∀ c ∈ b5, isPySpace c = true) (ha : ∀ c ∈ e.addr, isPySpace c = false) (hf : Word e.foreign) (hs : Word e.state) (hp : e.port < 2 ^ 16) (hi : e.pid < 2 ^ 32) :
    winLine (e.line b0 b1 b2 b3 b4 ++ b5) =
      .ok (some ⟨"tcp".toList, e.addr, e.port, if e.state = "LISTENING".toList then "LISTEN".toList else e.state, e.pid⟩) := by
  have wt : Word "TCP".toList := by unfold Word; decide
  have wl : Word (e.addr ++ ':' :: Nat.toDigits 10 e.port) := by
    refine ⟨by simp, fun c hc => ?_⟩
    simp only [List.mem_append, List.mem_cons] at hc
    rcases hc with hc | rfl | hc
    · exact ha c hc
    · decide
    · exact (toDigits_facts _ _ hc).2.1
  have wp : Word (Nat.toDigits 10 e.pid) := ⟨toDigits_ne_nil _, fun c hc => (toDigits_facts _ _ hc).2.1⟩
  have hstrip : pyStrip (e.line b0 b1 b2 b3 b4 ++ b5) = "TCP".toList ++ blankWords [(b1, e.addr ++ ':' :: Nat.toDigits 10 e.port), (b2, e.foreign), (b3, e.state), (b4, Nat.toDigits 10 e.pid)] := by
    have e1 : e.line b0 b1 b2 b3 b4 ++ b5 = b0 ++ ("TCP".toList ++ blankWords [(b1, e.addr ++ ':' :: Nat.toDigits 10 e.port), (b2, e.foreign), (b3, e.state), (b4, Nat.toDigits 10 e.pid)]) ++ b5 := by
      unfold WinPort.line
      generalize "TCP".toList = T
      simp [blankWords]
    rw [e1]
    refine pyStrip_around _ _ _ _ _ _ h0 h5 wt wp rfl ("TCP".toList ++ (b1 ++ (e.addr ++ ':' :: Nat.toDigits 10 e.port) ++ b2 ++ e.foreign ++ b3 ++ e.state ++ b4)) ?_
    generalize "TCP".toList = T
    simp [blankWords]
  have hsplit := splitWs_words [(b1, e.addr ++ ':' :: Nat.toDigits 10 e.port), (b2, e.foreign), (b3, e.state), (b4, Nat.toDigits 10 e.pid)]
    (by simp only [List.mem_cons, List.not_mem_nil, or_false]
        rintro p (rfl | rfl | rfl | rfl)
        · exact ⟨h1, wl⟩
        · exact ⟨h2, hf⟩
        · exact ⟨h3, hs⟩
        · exact ⟨h4, wp⟩) "TCP".toList
  unfold winLine
  rw [hstrip, splitWs_word _ _ _ wt.2, List.nil_append, hsplit]
  simp only [List.map_cons, List.map_nil, true_or, if_true]
  rw [rsplitColon_last _ _ fun c hc => (toDigits_facts _ _ hc).2.2.2.2.2.2.2, pyInt_digits _ hi]
  simp only
  rw [pyInt_digits _ (by omega)]
  rfl

/-- An entry with its spacing. -/
structure WinEntry extends WinPort where
  s0 : Nat
  s1 : Nat
  s2 : Nat
  s3 : Nat
  s4 : Nat

/-- Columns are separated by spaces, lines end with a carriage return (and the newline). -/
def WinEntry.text (e : WinEntry) : List Char :=
  e.toWinPort.line (List.replicate e.s0 ' ') (List.replicate (e.s1 + 1) ' ') (List.replicate (e.s2 + 1) ' ') (List.replicate (e.s3 + 1) ' ') (List.replicate (e.s4 + 1) ' ') ++ ['\r']

/-- Entries as Windows prints them. -/
def WinEntry.ok (e : WinEntry) : Prop := (∀ c ∈ e.addr, isPySpace c = false) ∧ Word e.foreign ∧ Word e.state ∧ e.port < 2 ^ 16 ∧ e.pid < 2 ^ 32

/-- What should be listed for it. -/
def WinEntry.info (e : WinEntry) : PortInfo := ⟨"tcp".toList, e.addr, e.port, if e.state = "LISTENING".toList then "LISTEN".toList else e.state, e.pid⟩

/-- The lines before the entries. -/
def winHeader : List Char := "\r\nActive Connections\r\n\r\n  Proto  Local Address          Foreign Address        State           PID\r\n".toList

theorem blank_replicate (n : Nat) : Blank (List.replicate (n + 1) ' ') := by
  refine ⟨by simp, fun c hc => ?_⟩
  rw [(List.mem_replicate.1 hc).2]
  decide

theorem winEntry_line (e : WinEntry) (h : e.ok) : winLine e.text = .ok (some e.info) := by
  obtain ⟨h1, h2, h3, h4, h5⟩ := h
  exact C81_windows_line e.toWinPort _ _ _ _ _ ['\r'] (fun c hc => by rw [(List.mem_replicate.1 hc).2]; decide) (blank_replicate _) (blank_replicate _) (blank_replicate _)
    (blank_replicate _) (by decide) h1 h2 h3 h4 h5

theorem winEntry_nl (e : WinEntry) (h : e.ok) : '\n' ∉ e.text := by
  obtain ⟨h1, h2, h3, -, -⟩ := h
  have hsp : isPySpace '\n' = true := by decide
  intro hm
  simp only [WinEntry.text, WinPort.line, List.mem_append, List.mem_cons, List.mem_replicate, List.not_mem_nil, or_false] at hm
  rcases hm with ((((((((((hm | hm) | hm) | (hm | hm | hm)) | hm) | hm) | hm) | hm) | hm) | hm)) | hm
  · exact absurd hm.2 (by decide)
  · revert hm; decide
  · exact absurd hm.2 (by decide)
  · have := h1 _ hm; rw [hsp] at this; cases this
  · exact absurd hm (by decide)
  · exact absurd rfl (toDigits_facts _ _ hm).2.2.2.1
  · exact absurd hm.2 (by decide)
  · have := h2.2 _ hm; rw [hsp] at this; cases this
  · exact absurd hm.2 (by decide)
  · have := h3.2 _ hm; rw [hsp] at this; cases this
  · exact absurd hm.2 (by decide)
  · exact absurd rfl (toDigits_facts _ _ hm).2.2.2.1
  · exact absurd hm (by decide)

theorem winEntries_lines (es : List WinEntry) (h : ∀ e ∈ es, e.ok) : portLines winLine (splitNl (es.flatMap fun e => e.text ++ ['\n']) []) = .ok (es.map (·.info)) := by
  induction es with
  | nil => decide +kernel
  | cons e es ih =>
    simp only [List.flatMap_cons, List.append_assoc, List.map_cons, List.cons_append]
    rw [splitNl_line _ _ (winEntry_nl e (h e (by simp))), List.nil_append, List.nil_append, portLines, winEntry_line e (h e (by simp)), ih fun q hq => h q (by simp [hq])]
    rfl

/-- **C81** on Windows, for every listing of TCP ports: `netstat` lists exactly these, in order. -/
theorem C81_windows_partial (es : List WinEntry) (h : ∀ e ∈ es, e.ok) :
    netstat true (utf8 (winHeader ++ es.flatMap fun e => e.text ++ ['\n'])) = .ok (es.map (·.info)) := by
  have hh : winHeader = "\r".toList ++ '\n' :: ("Active Connections\r".toList ++ '\n' :: ("\r".toList ++ '\n' ::
      ("  Proto  Local Address          Foreign Address        State           PID\r".toList ++ '\n' :: []))) := by decide +kernel
  rw [netstat, pyDecode_utf8]
  simp only [if_true]
  rw [hh]
  simp only [List.append_assoc, List.cons_append, List.nil_append]
  rw [splitNl_line _ _ (by decide), splitNl_line _ _ (by decide), splitNl_line _ _ (by decide), splitNl_line _ _ (by decide)]
  have e1 : winLine ([] ++ "\r".toList) = .ok none := by decide +kernel
  have e2 : winLine ([] ++ "Active Connections\r".toList) = .ok none := by decide +kernel
  have e3 : winLine ([] ++ "  Proto  Local Address          Foreign Address        State           PID\r".toList) = .ok none := by decide +kernel
  simp only [portLines, e1, e2, e3, winEntries_lines es h]
  rfl

/-- Ports of both kinds of addresses. -/
def Ex.winEntries : List WinEntry := [⟨⟨"0.0.0.0".toList, 135, "0.0.0.0:0".toList, "LISTENING".toList, 900⟩, 2, 4, 12, 5, 7⟩, ⟨⟨"[::1]".toList, 8080, "[::1]:5".toList, "ESTABLISHED".toList, 12⟩, 2, 4, 1, 5, 0⟩]

example : ∀ e ∈ Ex.winEntries, e.ok := by unfold WinEntry.ok Word; decide +kernel

/-- **C81 fails** on Windows for UDP, whose lines have no state. -/
theorem C81_fails_udp : netstat true (utf8 "  UDP    0.0.0.0:123            *:*                                    1044\r\n".toList) = .ok [] := by decide +kernel

/-- **C81** (the quick check on Windows, for every listing of TCP ports) A local port is called open if an entry has the local address 127.0.0.1 with this port, in whatever state; else closed. -/
theorem C81_check (es : List WinEntry) (h : ∀ e ∈ es, e.ok) (port : Int) :
    checkLocalPort (utf8 (winHeader ++ es.flatMap fun e => e.text ++ ['\n'])) port =
      if ∃ e ∈ es, e.addr = "127.0.0.1".toList ∧ (e.port : Int) = port then .ok "open" else .ok "closed" := by
  rw [checkLocalPort, C81_windows_partial es h]
  simp only [List.any_map]
  congr 1
  rw [List.any_eq_true]
  simp only [Function.comp, WinEntry.info, decide_eq_true_eq, true_and]

/-- The quick check calls a port closed that is bound to all interfaces, and open if a connection uses it as its local port. -/
example : checkLocalPort (utf8 "  TCP    0.0.0.0:4242    0.0.0.0:0    LISTENING    7\r\n".toList) 4242 = .ok "closed" ∧
    checkLocalPort (utf8 "  TCP    127.0.0.1:4242    127.0.0.1:80    TIME_WAIT    0\r\n".toList) 4242 = .ok "open" := by decide +kernel

namespace Ex

/-! ## The theorems on these cases -/

theorem procs_ok : ∀ p ∈ procs, p.ok := by unfold PsProc.ok; decide
theorem not_occurs {s t : List Char} (h : ∀ i ∈ List.range (t.length + 1), ¬ s <+: t.drop i) : ¬ Occurs s t := by
  rintro ⟨a, b, rfl⟩
  refine h a.length (by simp; omega) ⟨b, ?_⟩
  rw [List.append_assoc, List.drop_left]
open Classical in
example := C64_find_partial 4 procs procs_ok "vi".toList (by decide +kernel) (not_occurs (by decide +kernel)) (fun p => decide (Occurs "vi".toList p.cmd)) (by simp)
example := C64_fails_header 4 procs procs_ok "MAN".toList ⟨"COM".toList, "D".toList, by decide +kernel⟩
example := C64_fails_empty 4 procs procs_ok
example := C64_fails_default 4 procs procs_ok [] (fun _ => .ok ()) "vi".toList
example := C64_kill_partial 4 4 procs procs procs_ok procs_ok "tp_".toList (by decide +kernel) (not_occurs (by decide +kernel)) (fun _ => .ok ())
/-- 7 runs, 8 has ended. -/
example (exc : Bool) := C80_partial os (fun i => if i = 7 then .running else .gone) [("a", 7), ("b", 8)] exc (by simp [OnePid, os]) (by simp) (by simp)
example := C80_fails_zombie os (fun _ => .zombie) "a" 7 (by simp [OnePid, os]) rfl
example := C80_fails_foreign os (fun _ => .foreign) "a" 7 (by simp [OnePid, os]) rfl
example := C80_fails_group os (fun _ => .running) "a" (.int 0) (.inl rfl) (by decide) rfl false
example : (cleanerBlock os (fun _ => .running) false [(.name "a", .int (-1))] []).1 9 = .zombie :=
  C80_fails_all os (fun _ => .running) "a" false 9 (by decide) (by decide) (by decide) rfl
example := C80_fails_overflow os (fun _ => .running) "a" 2147483648 (.inr (by decide)) [("b", 7)] false
/-- A listing without ports. -/
example (ps : List PortInfo) (h : netstat false (utf8 "Proto Recv-Q\n".toList) = .ok ps) : ps = [] := C81_fails _ ps h
example : ∃ ps, netstat false (utf8 "Proto Recv-Q\n".toList) = .ok ps := ⟨[], by decide +kernel⟩
example := C81_windows_line ⟨"0.0.0.0".toList, 135, "0.0.0.0:0".toList, "LISTENING".toList, 900⟩ "  ".toList " ".toList "\t".toList "  ".toList " ".toList "\r".toList
  (by decide +kernel) (by unfold Blank; decide +kernel) (by unfold Blank; decide +kernel) (by unfold Blank; decide +kernel) (by unfold Blank; decide +kernel) (by decide +kernel)
  (by decide +kernel) (by unfold Word; decide +kernel) (by unfold Word; decide +kernel) (by decide) (by decide)
theorem winEntries_ok : ∀ e ∈ winEntries, e.ok := by unfold WinEntry.ok Word; decide +kernel
example := C81_windows_partial winEntries winEntries_ok
example := C81_check winEntries winEntries_ok 8080

end Ex

end Verif
