import Verif.Spec.CommandLine
import Verif.Props.ProcessMore
/-!
# C122: the command line of the bootstrap script
-/
namespace Verif

/-- **C122.** Options may be written in any order, with or without values, with `=` or as two words, in full or abbreviated,
before and behind the name; the last one of each kind counts, and an option that is not written keeps its default. -/
theorem C122_parsed {l : CmdLine} (h : l.Ok) :
    ∃ c, parseArgs l.words = some c ∧ c.procname = l.name ∧ ∀ o, c.opts o = said l.options o :=
  ⟨_, parse_line l h, applyArgs_name _ _, applyArgs_said _ _⟩

/-- **C122.** These are the only command lines that are accepted, and nothing else is stored. -/
theorem C122_accepted (ws : List (List Char)) (c : Conf) :
    parseArgs ws = some c ↔ ∃ l : CmdLine, l.Ok ∧ ws = l.words ∧ c.procname = l.name ∧ ∀ o, c.opts o = said l.options o := by
  constructor
  · intro h
    obtain ⟨l, h1, h2, h3⟩ := take_true _ ws {} c (Nat.le_refl _) h rfl
    exact ⟨l, h1, h2, by rw [h3, applyArgs_name], fun o => by rw [h3]; exact applyArgs_said _ _ o⟩
  · rintro ⟨l, h1, rfl, h3, h4⟩
    obtain ⟨c', k1, k2, k3⟩ := C122_parsed h1
    rw [k1, conf_ext (c := c') (d := c) (by rw [k2, h3]) fun o => by rw [k3, h4]]

/-- **C122.** A command line says one thing only, however it is taken apart. -/
theorem C122_same {l l' : CmdLine} (h : l.Ok) (h' : l'.Ok) (he : l.words = l'.words) :
    l.name = l'.name ∧ ∀ o, said l.options o = said l'.options o := by
  obtain ⟨c, h1, h2, h3⟩ := C122_parsed h
  obtain ⟨c', h1', h2', h3'⟩ := C122_parsed h'
  rw [he, h1'] at h1
  cases h1
  exact ⟨by rw [← h2, ← h2'], fun o => by rw [← h3, ← h3']⟩

/-- **C122.** Every other command line is refused (or asks for help): the script ends before it does anything else. -/
theorem C122_refused {ws : List (List Char)} (h : ¬ ∃ l : CmdLine, l.Ok ∧ ws = l.words) (levelOf) (B : BootEnv) :
    bootChild levelOf B ws = .died (.other "SystemExit") := by
  cases hp : parseArgs ws with
  | none => rw [bootChild, hp]
  | some c =>
    obtain ⟨l, h1, h2, -⟩ := (C122_accepted ws c).1 hp
    exact absurd ⟨l, h1, h2⟩ h

/-- **C122.** What the child is told: with a level it can use, everything is as the options say; `--loglevel` without a
value is accepted and ends the script with AttributeError. -/
theorem C122_setup {l : CmdLine} (h : l.Ok) (levelOf : List Char → Option Int) (B : BootEnv) :
    (said l.options .loglevel = .const → bootChild levelOf B (l.words) = .died .attributeError) ∧
    (∀ level, (said l.options .loglevel = .default ∧ level = 20) ∨ (∃ s, said l.options .loglevel = .given s ∧ bootLevel levelOf (.given s) = .ok level) →
      ∃ c k, parseArgs (l.words) = some c ∧ childSetup levelOf c = .ok k ∧ k.procName = l.name ∧ k.level = level ∧
        (k.qt = true ↔ (said l.options .qt).On) ∧ (k.verbose = true ↔ (said l.options .verbose).On) ∧ (k.forks = true ↔ said l.options .daemon = .const) ∧
        (k.listen = match said l.options .listenAddr with | .default => some "tcp://127.0.0.1:*".toList | .const => none | .given a => some a) ∧
        (k.logAddr = match said l.options .logaddr with | .given a => some (utf8 a) | _ => none) ∧
        (k.bootstrap = match said l.options .bootstrapAddr with | .given a => some a | _ => none) ∧
        (k.namePrefix = match said l.options .childNamePrefix with | .default => some [] | .const => none | .given a => some a)) := by
  obtain ⟨c, h1, h2, h3⟩ := C122_parsed h
  constructor
  · intro hs
    rw [bootChild, h1]
    simp only [childSetup, h3, hs, bootLevel]
  · intro level hl
    have hb : bootLevel levelOf (said l.options .loglevel) = .ok level := by
      rcases hl with ⟨a, rfl⟩ | ⟨s, a, b⟩
      · rw [a]; rfl
      · rw [a]; exact b
    refine ⟨c, _, h1, by simp only [childSetup, h3, hb, h2]; rfl, rfl, rfl, ?_, ?_, ?_, ?_, ?_, ?_, ?_⟩
    · cases said l.options .qt <;> simp [OptVal.On]
    · cases said l.options .verbose <;> simp [OptVal.On]
    · simp
    · cases said l.options .listenAddr <;> rfl
    · cases said l.options .logaddr <;> rfl
    · cases said l.options .bootstrapAddr <;> rfl
    · cases said l.options .childNamePrefix <;> rfl

/-- **C122**, what may surprise: a text after `--qt` switches Qt on whatever it says, a text after `--daemon` does not
make a daemon. -/
theorem C122_texts {as : List CmdArg} (h : ∀ a ∈ as, a.Ok) (v : List Char) (hv : v ≠ []) (levelOf : List Char → Option Int)
    (hl : said as .loglevel = .default) :
    ∃ c k, parseArgs (as.flatMap CmdArg.words ++ ["--qt=".toList ++ v, "--daemon=".toList ++ v]) = some c ∧ childSetup levelOf c = .ok k ∧
      k.qt = true ∧ k.forks = false := by
  have hok : (CmdLine.noName (as ++ [.eq BootOpt.qt.text .qt v, .eq BootOpt.daemon.text .daemon v]) false).Ok := by
    intro a ha
    rcases List.mem_append.1 ha with ha | ha
    · exact h a ha
    · simp only [List.mem_cons, List.not_mem_nil, or_false] at ha; rcases ha with rfl | rfl <;> exact means_text _
  have hw : as.flatMap CmdArg.words ++ ["--qt=".toList ++ v, "--daemon=".toList ++ v] =
      (CmdLine.noName (as ++ [.eq BootOpt.qt.text .qt v, .eq BootOpt.daemon.text .daemon v]) false).words := by
    simp only [CmdLine.words, List.flatMap_append, List.append_assoc, if_neg (by simp : ¬ (false = true)), List.append_nil]
    rw [show "--qt=".toList = "--qt".toList ++ ['='] by decide +kernel, show "--daemon=".toList = "--daemon".toList ++ ['='] by decide +kernel,
      List.append_assoc, List.append_assoc]
    rfl
  obtain ⟨c, k, h1, h2, -, -, h5, -, h7, -⟩ := (C122_setup hok levelOf ⟨true, fun _ => true, fun _ => .error .typeError, fun _ => [], 0⟩).2 20
    (.inl ⟨by simpa [said, CmdLine.options, CmdArg.opt] using hl, rfl⟩)
  refine ⟨c, k, by rw [hw]; exact h1, h2, h5.2 ?_, ?_⟩
  · simp [said, CmdLine.options, CmdArg.opt, CmdArg.says, OptVal.On, hv, List.filter_cons]
  · cases hf : k.forks with
    | false => rfl
    | true => have := h7.1 hf; simp [said, CmdLine.options, CmdArg.opt, CmdArg.says, List.filter_cons] at this

/-! ### A concrete command line -/

/-- `--logl=10 worker --qt --logaddr tcp://x --loglevel -5 --verb` -/
def exCmd : CmdLine :=
  .named [.eq "--logl".toList .loglevel "10".toList] "worker".toList
    [.bare "--qt".toList .qt, .sep "--logaddr".toList .logaddr "tcp://x".toList, .sep "--loglevel".toList .loglevel "-5".toList, .bare "--verb".toList .verbose] false

theorem exCmd_ok : exCmd.Ok := by
  refine ⟨?_, ?_, .inl (by decide +kernel), ?_, by simp⟩
  · intro a ha
    simp only [List.mem_cons, List.not_mem_nil, or_false] at ha
    subst ha
    show Means _ _
    decide +kernel
  · intro a ha
    simp only [List.mem_cons, List.not_mem_nil, or_false] at ha
    rcases ha with rfl | rfl | rfl | rfl
    · show Means _ _; decide +kernel
    · exact ⟨by decide +kernel, .inl (by decide +kernel)⟩
    · exact ⟨by decide +kernel, .inr (.inr ⟨.inl ((negNumber_iff _).1 (by decide +kernel)), by decide +kernel, by decide +kernel⟩)⟩
    · show Means _ _; decide +kernel
  · intro a ha
    simp only [List.getLast?_singleton, Option.mem_some_iff] at ha
    subst ha
    exact fun h => h

example : exCmd.words = ["--logl=10".toList, "worker".toList, "--qt".toList, "--logaddr".toList, "tcp://x".toList,
    "--loglevel".toList, "-5".toList, "--verb".toList] := by decide +kernel
example : said exCmd.options .loglevel = .given "-5".toList ∧ said exCmd.options .verbose = .const ∧ said exCmd.options .daemon = .default := by decide +kernel

/-- Two names, an ambiguous and an unknown option, and help are refused. -/
example : ∀ ws ∈ [["a".toList, "b".toList], ["--log".toList, "x".toList], ["--x".toList], ["a".toList, "-h".toList]], ¬ ∃ l : CmdLine, l.Ok ∧ ws = l.words := by
  intro ws hws
  have hn : parseArgs ws = none := by
    have : ∀ ws ∈ [["a".toList, "b".toList], ["--log".toList, "x".toList], ["--x".toList], ["a".toList, "-h".toList]], (parseArgs ws).isNone = true := by decide +kernel
    exact Option.isNone_iff_eq_none.1 (this ws hws)
  rintro ⟨l, hok, rfl⟩
  obtain ⟨c, h1, -⟩ := C122_parsed hok
  rw [h1] at hn
  cases hn

/-! ## Cases that meet the hypotheses -/

example := C122_same exCmd_ok exCmd_ok rfl
example (levelOf : List Char → Option Int) (B : BootEnv) := C122_refused (ws := ["--x".toList]) (by
  rintro ⟨l, hok, h⟩
  obtain ⟨c, h1, -⟩ := C122_parsed hok
  rw [← h, show parseArgs ["--x".toList] = none from Option.isNone_iff_eq_none.1 (by decide +kernel)] at h1
  cases h1) levelOf B
example (levelOf : List Char → Option Int) (B : BootEnv) := C122_setup exCmd_ok levelOf B
/-- levels -/
example : (bootLevel (fun _ => none) (.given "10".toList)).toOption = some 10 ∧ (bootLevel (fun _ => some 40) (.given "ERROR".toList)).toOption = some 40 := by decide +kernel
example (levelOf : List Char → Option Int) := C122_texts (as := [.sep "--logaddr".toList .logaddr "tcp://x".toList, .bare "--verb".toList .verbose])
  (by
    have h := exCmd_ok.2.1
    intro a ha
    refine h a ?_
    simp only [List.mem_cons, List.not_mem_nil, or_false] at ha ⊢
    rcases ha with rfl | rfl <;> simp)
  "no".toList (by decide) levelOf (by decide +kernel)

end Verif
