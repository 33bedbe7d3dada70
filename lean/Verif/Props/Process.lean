import Verif.Spec.Process
import Verif.Proof.CommandLine
import Verif.Props.Stdio
import Verif.Props.Address
/-!
# C58, C59: the command line of a child and its streams
-/
namespace Verif

theorem isDigits_toDigits (n : Nat) : isDigits (Nat.toDigits 10 n) = true := by
  simp only [isDigits, Bool.and_eq_true, Bool.not_eq_true', List.isEmpty_eq_false_iff, List.all_eq_true, Bool.or_eq_true]
  refine ⟨Nat.toDigits_ne_nil, fun c hc => .inl ?_⟩
  obtain ⟨d, hd, rfl⟩ := mem_toDigits (by decide) (by decide) _ _ hc
  have : ∀ d < 10, isUniDigit (Nat.digitChar d) = true := by decide +kernel
  exact this d hd

theorem toDigits_uni (n : Nat) : (Nat.toDigits 10 n).all isUniDigit = true := by
  simp only [List.all_eq_true]
  intro c hc
  obtain ⟨d, hd, rfl⟩ := mem_toDigits (by decide) (by decide) _ _ hc
  have : ∀ d < 10, isUniDigit (Nat.digitChar d) = true := by decide +kernel
  exact this d hd

theorem bootLevel_digits (f) (n : Nat) (h : (Nat.toDigits 10 n).length ≤ 4300) : bootLevel f (.given (Nat.toDigits 10 n)) = .ok (n : Int) := by
  simp only [bootLevel, isDigits_toDigits, toDigits_uni, if_true, intOfDigits, if_neg (show ¬ (Nat.toDigits 10 n).length > 4300 by omega), foldl_toDigits]

/-- Whether the output is captured. -/
def StartReq.Captures (own : Option (List Char)) (r : StartReq) : Prop :=
  r.logStdio = some true ∨ (r.logStdio = none ∧ r.daemon = false ∧ r.stdout = .none ∧ r.stderr = .none ∧ wantedLog own r ≠ none)

instance (own) (r : StartReq) : Decidable (r.Captures own) := inferInstanceAs (Decidable (_ ∨ _))

instance (r : StartReq) : Decidable r.Compatible := inferInstanceAs (Decidable (_ ∧ _))

/-- The command line for a request. -/
def wantedArgs (E : ProcEnv) (own : Option (List Char)) (boot : List Char) (r : StartReq) (lv : Int) : List (List Char) :=
  [wantedName E r] ++ (if r.qt then ["--qt".toList] else []) ++ (if r.daemon then ["--daemon".toList] else []) ++
    (match wantedLog own r with | none => [] | some a => ["--logaddr=".toList ++ a, "--loglevel=".toList ++ intText lv]) ++
    ["--listen_addr=".toList ++ r.address, "--bootstrap_addr=".toList ++ boot] ++
    (if E.namePrefix = [] then [] else ["--child_name_prefix=".toList ++ E.namePrefix])

theorem start_level (E : ProcEnv) (r : StartReq) : logLevelText E r.args =
    match wantedLevel E r with
    | none => .error .attributeError
    | some lv => .ok (intText lv) := by
  rcases r with ⟨name, address, qt, logAddr, level, logStdio, executable, condaEnv, daemon, stdin, stdout, stderr⟩
  rcases level with _ | ⟨n⟩ | ⟨t⟩
  · rfl
  · rfl
  · simp only [logLevelText, StartReq.args, wantedLevel]
    cases E.levelOf t <;> rfl

theorem start_log (E : ProcEnv) (own : Option (List Char)) (hl : E.logAddress = own.map utf8) (r : StartReq) : logAddrOf E r.args =
    match wantedLog own r with
    | none => .none
    | some a => .bytes (utf8 a) := by
  rcases r with ⟨name, address, qt, logAddr, level, logStdio, executable, condaEnv, daemon, stdin, stdout, stderr⟩
  cases logAddr with
  | some a => simp [logAddrOf, StartReq.args, wantedLog]
  | none =>
    cases daemon with
    | true => simp [logAddrOf, StartReq.args, wantedLog, PArg.truth]
    | false => cases own <;> simp [logAddrOf, StartReq.args, wantedLog, PArg.truth, hl]

theorem start_args (E : ProcEnv) (own : Option (List Char)) (hl : E.logAddress = own.map utf8) (r : StartReq) : ∀ lv, logArgs (logAddrOf E r.args) lv =
    .ok (match wantedLog own r with
      | none => []
      | some a => ["--logaddr=".toList ++ a, "--loglevel=".toList ++ lv]) := by
  intro lv
  rw [start_log E own hl]
  cases wantedLog own r with
  | none => rfl
  | some a => simp only [logArgs, pyDecode_utf8]

theorem start_name (E : ProcEnv) (r : StartReq) : childName E r.args =
    wantedName E r := by
  rcases r with ⟨name, address, qt, logAddr, level, logStdio, executable, condaEnv, daemon, stdin, stdout, stderr⟩
  cases name <;> rfl

theorem start_stdio (E : ProcEnv) (own : Option (List Char)) (hl : E.logAddress = own.map utf8) (r : StartReq) : logStdioOf r.args
      (logAddrOf E r.args) = .bool true ↔
    r.Captures own := by
  rw [start_log E own hl]
  simp only [logStdioOf, StartReq.Captures]
  generalize wantedLog own r = w
  rcases r with ⟨name, address, qt, logAddr, level, logStdio, executable, condaEnv, daemon, stdin, stdout, stderr⟩
  simp only
  rcases logStdio with _ | b
  · by_cases h : stdout = .none ∧ stderr = .none ∧ daemon = false
    · obtain ⟨rfl, rfl, rfl⟩ := h
      cases w <;> simp [StartReq.args]
    · simp only [StartReq.args]
      rw [if_neg (by simpa using h)]
      simp only [reduceCtorEq, false_or, true_and, false_iff]
      exact fun hh => h ⟨hh.2.1, hh.2.2.1, hh.1⟩
  · simp [StartReq.args]

theorem startPlan_req (E : ProcEnv) (own : Option (List Char)) (boot : List Char) (hl : E.logAddress = own.map utf8) (hb : E.bootstrap = utf8 boot) (r : StartReq) :
    match wantedLevel E r with
    | none => startPlan E r.args = .error .attributeError
    | some lv =>
      if r.Compatible then
        ∃ L, startPlan E r.args = .ok L ∧ L.args = wantedArgs E own boot r lv ∧ L.name = wantedName E r ∧
          L.cmd = (match r.condaEnv with | some c => ["conda".toList, "run".toList, "--no-capture-output".toList, "-n".toList, c] | none => []) ++
            [r.executable.getD (if r.condaEnv = none then E.python else "python".toList), "-u".toList, "-m".toList, "teleprox.bootstrap".toList] ++ L.args ∧
          L.capture = decide (r.Captures own) ∧
          L.stdin = (if r.stdin.truth then r.stdin else devnull) ∧
          L.stdout = (if r.daemon then devnull else if r.Captures own then pipe else r.stdout) ∧
          L.stderr = (if r.daemon then devnull else if r.Captures own then pipe else r.stderr)
      else startPlan E r.args = .error .assertionError := by
  have h0 : r.args.daemon = .bool r.daemon ∧ r.args.qt = .bool r.qt ∧ r.args.address = .str r.address ∧ r.args.stdin = r.stdin ∧ r.args.stdout = r.stdout ∧
      r.args.stderr = r.stderr ∧ r.args.executable = r.executable ∧ r.args.condaEnv = r.condaEnv := ⟨rfl, rfl, rfl, rfl, rfl, rfl, rfl, rfl⟩
  obtain ⟨hd, hq, had, hin, hout, herr, hex, hco⟩ := h0
  have h1 : r.args.name.isName = true := by simp only [StartReq.args]; cases r.name <;> rfl
  have h2 : r.args.logAddr = .none ∨ r.args.logAddr.isText = true := by
    simp only [StartReq.args]; cases r.logAddr with | none => exact .inl rfl | some a => exact .inr rfl
  have h3 : r.args.logStdio = .none ∨ r.args.logStdio.isBoolish = true := by
    simp only [StartReq.args]; cases r.logStdio with | none => exact .inl rfl | some a => exact .inr rfl
  have h4 : r.args.logStdio = .bool true ↔ r.logStdio = some true := by
    simp only [StartReq.args]; cases r.logStdio <;> simp
  have hs := start_stdio E own hl r
  have h5 : ∀ b, (PArg.bool b).isBoolish = true := fun _ => rfl
  have h6 : ∀ b, (PArg.str b).isText = true := fun _ => rfl
  simp only [startPlan, hd, hq, had, h1, h5, h6, h2, h3, h4, hin, hout, herr, hex, hco, start_level, start_args E own hl, hb, pyDecode_utf8, hs,
    start_name, not_true_eq_false, if_false, Bool.true_eq_false, PArg.bool.injEq]
  cases hw : wantedLevel E r with
  | none => simp
  | some lv =>
    simp only
    by_cases hc : r.Compatible
    · rw [if_pos hc, if_neg (fun h => h.2 ⟨(hc.1 h.1).1, (hc.1 h.1).2.1⟩)]
      by_cases hda : r.daemon = true
      · have hnc : ¬ r.Captures own := by
          rintro (h | h)
          · rw [(hc.1 h).2.2] at hda; cases hda
          · rw [h.2.1] at hda; cases hda
        obtain ⟨h7, h8, h9⟩ := hc.2 hda
        rw [if_pos hda, if_neg hnc, if_neg (by simp [h7, h8, h9])]
        refine ⟨_, rfl, ?_, rfl, ?_, ?_, ?_, ?_, ?_⟩
        · simp only [bootArgs, hd, hq, had, PArg.bool.injEq]; rfl
        · simp only [bootCmd, hex, hco]; cases r.executable <;> cases r.condaEnv <;> rfl
        all_goals simp [hda, hnc, h7, PArg.truth]
      · rw [if_neg hda]
        by_cases hca : r.Captures own
        · rw [if_pos hca]
          refine ⟨_, rfl, ?_, rfl, ?_, ?_, ?_, ?_, ?_⟩
          · simp only [bootArgs, hd, hq, had, PArg.bool.injEq]; rfl
          · simp only [bootCmd, hex, hco]; cases r.executable <;> cases r.condaEnv <;> rfl
          all_goals simp [hda, hca]
        · rw [if_neg hca]
          refine ⟨_, rfl, ?_, rfl, ?_, ?_, ?_, ?_, ?_⟩
          · simp only [bootArgs, hd, hq, had, PArg.bool.injEq]; rfl
          · simp only [bootCmd, hex, hco]; cases r.executable <;> cases r.condaEnv <;> rfl
          all_goals simp [hda, hca]
    · rw [if_neg hc]
      by_cases h7 : r.logStdio = some true ∧ ¬ (r.stdout = .none ∧ r.stderr = .none)
      · rw [if_pos h7]
      · rw [if_neg h7]
        by_cases hda : r.daemon = true
        · rw [if_pos hda]
          by_cases hca : r.Captures own
          · rw [if_pos hca]
          · rw [if_neg hca]
            by_cases h8 : r.stdin = .none ∧ r.stdout = .none ∧ r.stderr = .none
            · exfalso
              exact hc ⟨fun h => absurd (.inl h) hca, fun _ => h8⟩
            · rw [if_pos h8]
        · exfalso
          refine hc ⟨fun h => ?_, fun h => absurd h hda⟩
          have := Classical.byContradiction fun hn => h7 ⟨h, hn⟩
          exact ⟨this.1, this.2, by simpa using hda⟩

/-- The namespace for a request. -/
def finalConf (c : Conf) (own : Option (List Char)) (E : ProcEnv) (boot : List Char) (r : StartReq) (lv : List Char) : Conf :=
  let c := if r.qt then c.set .qt .const else c
  let c := if r.daemon then c.set .daemon .const else c
  let c := match wantedLog own r with | none => c | some a => (c.set .logaddr (.given a)).set .loglevel (.given lv)
  let c := (c.set .listenAddr (.given r.address)).set .bootstrapAddr (.given boot)
  if E.namePrefix = [] then c else c.set .childNamePrefix (.given E.namePrefix)

theorem finalConf_opts (name : Option (List Char)) (own : Option (List Char)) (E : ProcEnv) (boot : List Char) (r : StartReq) (lv : List Char) :
    let c := finalConf { procname := name } own E boot r lv
    c.procname = name ∧ c.opts .qt = (if r.qt then .const else .default) ∧ c.opts .daemon = (if r.daemon then .const else .default) ∧
    c.opts .logaddr = (match wantedLog own r with | none => .default | some a => .given a) ∧
    c.opts .loglevel = (match wantedLog own r with | none => .default | some _ => .given lv) ∧
    c.opts .listenAddr = .given r.address ∧ c.opts .bootstrapAddr = .given boot ∧
    c.opts .childNamePrefix = (if E.namePrefix = [] then .default else .given E.namePrefix) ∧ c.opts .verbose = .default := by
  simp only [finalConf]
  by_cases h : E.namePrefix = [] <;> simp only [h, if_true, if_false] <;> cases r.qt <;> cases r.daemon <;> cases wantedLog own r <;>
    simp [Conf.set]

theorem finalConf_setup (f) (own : Option (List Char)) (E : ProcEnv) (boot : List Char) (r : StartReq) (n : Nat) (hd : (Nat.toDigits 10 n).length ≤ 4300) :
    childSetup f (finalConf { procname := some (wantedName E r) } own E boot r (Nat.toDigits 10 n)) =
      .ok (wantedChild E own boot r (if wantedLog own r = none then 20 else (n : Int))) := by
  obtain ⟨h1, h2, h3, h4, h5, h6, h7, h8, h9⟩ := finalConf_opts (some (wantedName E r)) own E boot r (Nat.toDigits 10 n)
  have hlv : bootLevel f ((finalConf { procname := some (wantedName E r) } own E boot r (Nat.toDigits 10 n)).opts .loglevel) =
      .ok (if wantedLog own r = none then 20 else (n : Int)) := by
    rw [h5]
    cases wantedLog own r with
    | none => rfl
    | some a => simp only [bootLevel_digits f n hd, reduceCtorEq, if_false]
  have hf : decide ((if r.daemon then OptVal.const else .default) = .const) = r.daemon := by cases r.daemon <;> rfl
  have hp : (if E.namePrefix = [] then OptVal.default else .given E.namePrefix).text (some []) = some E.namePrefix := by
    by_cases h : E.namePrefix = [] <;> simp [h, OptVal.text]
  have ha : ((match wantedLog own r with | none => OptVal.default | some a => .given a).text none) = wantedLog own r := by
    cases wantedLog own r <;> rfl
  simp only [childSetup, hlv, h1, h2, h3, h4, h6, h7, h8, h9, hf, hp, ha, wantedChild]
  cases r.qt <;> rfl

theorem eq_texts : "--listen_addr=".toList = "--listen_addr".toList ++ ['='] ∧ "--logaddr=".toList = "--logaddr".toList ++ ['='] ∧
    "--loglevel=".toList = "--loglevel".toList ++ ['='] ∧ "--bootstrap_addr=".toList = "--bootstrap_addr".toList ++ ['='] ∧
    "--child_name_prefix=".toList = "--child_name_prefix".toList ++ ['='] := by
  decide +kernel

/-- The options behind the name. -/
def tailArgs (own : Option (List Char)) (E : ProcEnv) (boot : List Char) (r : StartReq) (lv : List Char) : List CmdArg :=
  (if r.qt then [.bare BootOpt.qt.text .qt] else []) ++ ((if r.daemon then [.bare BootOpt.daemon.text .daemon] else []) ++
    ((match wantedLog own r with | none => [] | some a => [.eq BootOpt.logaddr.text .logaddr a, .eq BootOpt.loglevel.text .loglevel lv]) ++
    ([.eq BootOpt.listenAddr.text .listenAddr r.address, .eq BootOpt.bootstrapAddr.text .bootstrapAddr boot] ++
      (if E.namePrefix = [] then [] else [.eq BootOpt.childNamePrefix.text .childNamePrefix E.namePrefix]))))

theorem tailArgs_ok (own E boot r lv) : ∀ a ∈ tailArgs own E boot r lv, a.Ok := by
  intro a ha
  simp only [tailArgs, List.mem_append] at ha
  rcases ha with ha | ha | ha | ha | ha
  · split at ha
    · simp only [List.mem_cons, List.not_mem_nil, or_false] at ha; subst ha; exact means_text _
    · cases ha
  · split at ha
    · simp only [List.mem_cons, List.not_mem_nil, or_false] at ha; subst ha; exact means_text _
    · cases ha
  · split at ha
    · cases ha
    · simp only [List.mem_cons, List.not_mem_nil, or_false] at ha; rcases ha with rfl | rfl <;> exact means_text _
  · simp only [List.mem_cons, List.not_mem_nil, or_false] at ha; rcases ha with rfl | rfl <;> exact means_text _
  · split at ha
    · cases ha
    · simp only [List.mem_cons, List.not_mem_nil, or_false] at ha; subst ha; exact means_text _

theorem tailArgs_conf (c : Conf) (own E boot r lv) : applyArgs c (tailArgs own E boot r lv) = finalConf c own E boot r lv := by
  simp only [tailArgs, finalConf, applyArgs_append]
  cases r.qt <;> cases r.daemon <;> cases wantedLog own r <;> by_cases h : E.namePrefix = [] <;> simp only [h, if_true, if_false] <;> rfl

theorem tailArgs_words (own E boot) (r : StartReq) (lv : Int) :
    wantedArgs E own boot r lv = (CmdLine.named [] (wantedName E r) (tailArgs own E boot r (intText lv)) false).words := by
  obtain ⟨e1, e2, e3, e4, e5⟩ := eq_texts
  simp only [wantedArgs, e1, e2, e3, e4, e5, CmdLine.words, tailArgs, List.append_assoc, List.cons_append, List.nil_append, List.flatMap_nil, List.flatMap_append]
  cases r.qt <;> cases r.daemon <;> cases wantedLog own r <;> by_cases h : E.namePrefix = [] <;> simp only [h, if_true, if_false] <;> rfl

/-- **C58** For every request with arguments of the documented types, every environment and every name (with its prefix) that the script can read as one (`ArgWord`: it
does not start with a dash, or is a negative number or has a blank and cannot be read as an option): if `start_process` comes to
starting the child, the script parses its command line to exactly what was wanted: name, listening address, Qt, daemon, log address, prefix, and, if there is a log address,
the level. (Without a log address the level is INFO, whatever was wanted: `C58_fails_level`.) The executable and the conda environment are those wanted. -/
theorem C58_child_partial (E : ProcEnv) (own : Option (List Char)) (boot : List Char) (hl : E.logAddress = own.map utf8) (hb : E.bootstrap = utf8 boot) (r : StartReq)
    (L : Launch) (h : startPlan E r.args = .ok L) (hn : ArgWord (wantedName E r)) (n : Nat) (hlv : wantedLevel E r = some (n : Int))
    (hd : (Nat.toDigits 10 n).length ≤ 4300) :
    (∃ c, parseArgs L.args = some c ∧
      childSetup E.levelOf c = .ok (wantedChild E own boot r (if wantedLog own r = none then 20 else (n : Int)))) ∧
    L.cmd = (match r.condaEnv with | some c => ["conda".toList, "run".toList, "--no-capture-output".toList, "-n".toList, c] | none => []) ++
      [r.executable.getD (if r.condaEnv = none then E.python else "python".toList), "-u".toList, "-m".toList, "teleprox.bootstrap".toList] ++ L.args := by
  have hp := startPlan_req E own boot hl hb r
  rw [hlv] at hp
  simp only at hp
  by_cases hc : r.Compatible
  · rw [if_pos hc] at hp
    obtain ⟨L', h1, h2, -, h4, -⟩ := hp
    rw [h] at h1
    cases h1
    refine ⟨?_, h4⟩
    rw [h2]
    have ht : intText (n : Int) = Nat.toDigits 10 n := by
      rw [intText, if_neg (by omega)]; rfl
    refine ⟨finalConf { procname := some (wantedName E r) } own E boot r (intText n), ?_, ?_⟩
    · have hok : (CmdLine.named [] (wantedName E r) (tailArgs own E boot r (intText n)) false).Ok :=
        ⟨by simp, tailArgs_ok own E boot r _, hn, by simp, by simp⟩
      rw [tailArgs_words, parse_line _ hok]
      simp only [CmdLine.name, CmdLine.options, List.nil_append, tailArgs_conf]
    · rw [ht]
      exact finalConf_setup E.levelOf own E boot r n hd
  · rw [if_neg hc, h] at hp
    cases hp

/-- What a successful call went through. -/
theorem startPlan_inv (E : ProcEnv) (A : StartArgs) (L : Launch) (h : startPlan E A = .ok L) :
    ∃ lv la boot, logLevelText E A = .ok lv ∧ logArgs (logAddrOf E A) lv = .ok la ∧ pyDecode E.bootstrap = .ok boot ∧
      L.args = bootArgs E A (childName E A) la boot ∧ ¬ (A.logStdio = .bool true ∧ ¬ (A.stdout = .none ∧ A.stderr = .none)) ∧
      ((A.daemon = .bool true ∧ logStdioOf A (logAddrOf E A) ≠ .bool true ∧ (A.stdin = .none ∧ A.stdout = .none ∧ A.stderr = .none) ∧
          L.stdin = devnull ∧ L.stdout = devnull ∧ L.stderr = devnull ∧ L.capture = false) ∨
        (A.daemon ≠ .bool true ∧ logStdioOf A (logAddrOf E A) = .bool true ∧ L.stdin = (if A.stdin.truth then A.stdin else devnull) ∧ L.stdout = pipe ∧ L.stderr = pipe ∧
          L.capture = true) ∨
        (A.daemon ≠ .bool true ∧ logStdioOf A (logAddrOf E A) ≠ .bool true ∧ L.stdin = (if A.stdin.truth then A.stdin else devnull) ∧ L.stdout = A.stdout ∧
          L.stderr = A.stderr ∧ L.capture = false)) := by
  simp only [startPlan] at h
  generalize logStdioOf A (logAddrOf E A) = q at h ⊢
  by_cases c1 : A.daemon.isBoolish = false
  · rw [if_pos c1] at h; cases h
  rw [if_neg c1] at h
  by_cases c2 : A.qt.isBoolish = false
  · rw [if_pos c2] at h; cases h
  rw [if_neg c2] at h
  by_cases c3 : A.address.isText = false
  · rw [if_pos c3] at h; cases h
  rw [if_neg c3] at h
  by_cases c4 : A.name.isName = false
  · rw [if_pos c4] at h; cases h
  rw [if_neg c4] at h
  by_cases c5 : ¬ (A.logAddr = .none ∨ A.logAddr.isText = true)
  · rw [if_pos c5] at h; cases h
  rw [if_neg c5] at h
  cases hlv : logLevelText E A with
  | error e => rw [hlv] at h; cases h
  | ok lv =>
    rw [hlv] at h
    simp only at h
    by_cases c6 : ¬ (A.logStdio = .none ∨ A.logStdio.isBoolish = true)
    · rw [if_pos c6] at h; cases h
    rw [if_neg c6] at h
    by_cases c7 : A.logStdio = .bool true ∧ ¬ (A.stdout = .none ∧ A.stderr = .none)
    · rw [if_pos c7] at h; cases h
    rw [if_neg c7] at h
    cases hla : logArgs (logAddrOf E A) lv with
    | error e => rw [hla] at h; cases h
    | ok la =>
      rw [hla] at h
      simp only at h
      cases hb : pyDecode E.bootstrap with
      | error e => rw [hb] at h; cases h
      | ok boot =>
        rw [hb] at h
        simp only at h
        refine ⟨lv, la, boot, rfl, hla, rfl, ?_⟩
        by_cases c8 : A.daemon = .bool true
        · rw [if_pos c8] at h
          by_cases c9 : q = .bool true
          · rw [if_pos c9] at h; cases h
          rw [if_neg c9] at h
          by_cases c10 : A.stdin = .none ∧ A.stdout = .none ∧ A.stderr = .none
          · rw [if_neg (not_not_intro c10)] at h
            cases h
            exact ⟨rfl, c7, .inl ⟨c8, c9, c10, rfl, rfl, rfl, rfl⟩⟩
          · rw [if_pos c10] at h; cases h
        · rw [if_neg c8] at h
          by_cases c9 : q = .bool true
          · rw [if_pos c9] at h
            cases h
            exact ⟨rfl, c7, .inr (.inl ⟨c8, c9, rfl, rfl, rfl, rfl⟩)⟩
          · rw [if_neg c9] at h
            cases h
            exact ⟨rfl, c7, .inr (.inr ⟨c8, c9, rfl, rfl, rfl, rfl⟩)⟩

/-- An environment: a process named `main`, logging to this address if there is one, at level INFO. -/
def Ex.procEnv (own : Option (List Char)) : ProcEnv where
  ownName := "main".toList
  namePrefix := []
  logAddress := own.map utf8
  level := 20
  levelOf := fun s => [("DEBUG".toList, 10), ("INFO".toList, 20), ("ERROR".toList, 40)].lookup s
  bootstrap := utf8 "tcp://127.0.0.1:5555".toList
  python := "/usr/bin/python".toList
  reprBytes := fun _ => []

/-- A child called `camera`, with Qt, at level DEBUG. -/
def Ex.camera : StartReq := { name := some "camera".toList, qt := true, level := some (.named "DEBUG".toList) }

/-- The hypotheses of `C58_child_partial` hold for it. -/
example : ∃ L, startPlan (Ex.procEnv (some "tcp://127.0.0.1:9".toList)) Ex.camera.args = .ok L ∧
    wantedLevel (Ex.procEnv (some "tcp://127.0.0.1:9".toList)) Ex.camera = some ((10 : Nat) : Int) ∧
    L.args = ["camera".toList, "--qt".toList, "--logaddr=tcp://127.0.0.1:9".toList, "--loglevel=10".toList, "--listen_addr=tcp://127.0.0.1:*".toList,
      "--bootstrap_addr=tcp://127.0.0.1:5555".toList] := by
  have h := startPlan_req (Ex.procEnv (some "tcp://127.0.0.1:9".toList)) (some "tcp://127.0.0.1:9".toList) "tcp://127.0.0.1:5555".toList rfl rfl Ex.camera
  have hw : wantedLevel (Ex.procEnv (some "tcp://127.0.0.1:9".toList)) Ex.camera = some 10 := by decide +kernel
  rw [hw] at h
  simp only [if_pos (show Ex.camera.Compatible by decide +kernel)] at h
  obtain ⟨L, h1, h2, -⟩ := h
  exact ⟨L, h1, hw, by rw [h2]; decide +kernel⟩

/-- **C58 fails** in general: without a log address the level asked for does not reach the child, which logs at INFO. -/
theorem C58_fails_level (E : ProcEnv) (boot : List Char) (hl : E.logAddress = none) (hb : E.bootstrap = utf8 boot) (r : StartReq) (hr : r.logAddr = none)
    (L : Launch) (h : startPlan E r.args = .ok L) (hn : ArgWord (wantedName E r)) (n : Nat) (hlv : wantedLevel E r = some (n : Int))
    (hd : (Nat.toDigits 10 n).length ≤ 4300) :
    ∃ c k, parseArgs L.args = some c ∧ childSetup E.levelOf c = .ok k ∧ k.level = 20 := by
  obtain ⟨⟨c, h1, h2⟩, -⟩ := C58_child_partial E none boot hl hb r L h hn n hlv hd
  refine ⟨c, _, h1, h2, ?_⟩
  have : wantedLog none r = none := by simp [wantedLog, hr]
  simp [wantedChild, this]

/-- Such a case: DEBUG was wanted. -/
example : ∃ L, startPlan (Ex.procEnv none) Ex.camera.args = .ok L ∧ wantedLevel (Ex.procEnv none) Ex.camera = some ((10 : Nat) : Int) := by
  have h := startPlan_req (Ex.procEnv none) none "tcp://127.0.0.1:5555".toList rfl rfl Ex.camera
  have hw : wantedLevel (Ex.procEnv none) Ex.camera = some 10 := by decide +kernel
  rw [hw] at h
  simp only [if_pos (show Ex.camera.Compatible by decide +kernel)] at h
  obtain ⟨L, h1, -⟩ := h
  exact ⟨L, h1, hw⟩

/-- **C58 fails**: a log address given as str, the documented type, is accepted by the checks and then ends the call with AttributeError, whatever else is given. -/
theorem C58_fails_str (E : ProcEnv) (A : StartArgs) (s : List Char) (h : A.logAddr = .str s) (L : Launch) : startPlan E A ≠ .ok L := by
  have hl : logAddrOf E A = .str s := by simp [logAddrOf, h]
  intro hp
  obtain ⟨lv, la, boot, -, h2, -⟩ := startPlan_inv E A L hp
  rw [hl] at h2
  cases h2

/-- and with nothing else special it is AttributeError. -/
theorem C58_fails_str_error (E : ProcEnv) (s : List Char) : startPlan E { logAddr := .str s } = .error .attributeError := rfl

/-- **C58** The address to listen on is handed to the child as it was given if it is a text; bytes are handed on as Python writes them, with `b` and quotes, which zmq cannot bind to. -/
theorem C58_address (E : ProcEnv) (A : StartArgs) (L : Launch) (h : startPlan E A = .ok L) :
    (∀ s, A.address = .str s → "--listen_addr=".toList ++ s ∈ L.args) ∧ (∀ b, A.address = .bytes b → "--listen_addr=".toList ++ E.reprBytes b ∈ L.args) := by
  obtain ⟨lv, la, boot, -, -, -, h4, -⟩ := startPlan_inv E A L h
  rw [h4]
  constructor
  · intro s hs
    have : addressText E A.address = s := by rw [hs]; rfl
    unfold bootArgs
    rw [this]
    exact List.mem_append_left _ (List.mem_append_right _ (.head _))
  · intro b hb
    have : addressText E A.address = E.reprBytes b := by rw [hb]; rfl
    unfold bootArgs
    rw [this]
    exact List.mem_append_left _ (List.mem_append_right _ (.head _))

/-- **C58 fails**: a negative level, or a bool, is accepted and ends the child at once (AttributeError): `'-5'.isdigit()` is false and logging has no level of that name. -/
theorem C58_fails_negative (f : List Char → Option Int) (i : Int) (hi : i < 0) (hf : f (intText i) = none) : bootLevel f (.given (intText i)) = .error .attributeError := by
  have : isDigits (intText i) = false := by
    have : isUniDigit '-' = false := by decide +kernel
    have h' : isOtherDigit '-' = false := by decide +kernel
    simp [intText, hi, isDigits, this, h']
  simp only [bootLevel, this, Bool.false_eq_true, if_false, hf]

example : bootLevel (Ex.procEnv none).levelOf (.given (intText (-5))) = .error .attributeError := C58_fails_negative _ _ (by decide) (by decide +kernel)

/-- Flags given as 0 or 1 are accepted (they are equal to False and True) but not followed: with `daemon=1`, `qt=1` the child is neither, has no log address, and
its output is not captured even if this process has a log server. -/
theorem C58_fails_flags (E : ProcEnv) (A : StartArgs) (hq : A.qt = .int 1) (hd : A.daemon = .int 1) (hn : A.logAddr = .none) (hs : A.logStdio = .none) (L : Launch)
    (h : startPlan E A = .ok L) : L.capture = false ∧ ∃ boot, pyDecode E.bootstrap = .ok boot ∧ L.args = [childName E A,
      "--listen_addr=".toList ++ addressText E A.address, "--bootstrap_addr=".toList ++ boot] ++
      (if E.namePrefix = [] then [] else ["--child_name_prefix=".toList ++ E.namePrefix]) := by
  have hl : logAddrOf E A = .none := by simp [logAddrOf, hn, hd, PArg.truth]
  have hst : logStdioOf A .none = .none := by simp [logStdioOf, hs, hd]
  obtain ⟨lv, la, boot, -, h2, h3, h4, -, h5⟩ := startPlan_inv E A L h
  rw [hl] at h2 h5
  cases h2
  refine ⟨?_, boot, h3, ?_⟩
  · rcases h5 with h5 | h5 | h5
    · exact h5.2.2.2.2.2.2
    · rw [hst] at h5; cases h5.2.1
    · exact h5.2.2.2.2.2
  · rw [h4, bootArgs, if_neg (by simp [hq]), if_neg (by simp [hd])]
    rfl

/-- **C59** For every combination of arguments, whatever their types: if the child is started, its output is captured exactly when `log_stdio` is True, or it is None, `daemon` is
False, neither stdout nor stderr is given and a log address is known (given, or of this process); captured output goes to pipes; a daemon has no standard streams; otherwise the
streams are those given (stdin: nothing, if none is given). `subprocess.PIPE` is -1, `subprocess.DEVNULL` is -3. -/
theorem C59_capture (E : ProcEnv) (A : StartArgs) (L : Launch) (h : startPlan E A = .ok L) :
    (L.capture = true ↔ A.logStdio = .bool true ∨
      (A.logStdio = .none ∧ A.daemon = .bool false ∧ A.stdout = .none ∧ A.stderr = .none ∧ (A.logAddr ≠ .none ∨ E.logAddress ≠ none))) ∧
    (L.capture = true → L.stdout = .int (-1) ∧ L.stderr = .int (-1) ∧ A.daemon ≠ .bool true) ∧
    (A.daemon = .bool true → L.stdin = .int (-3) ∧ L.stdout = .int (-3) ∧ L.stderr = .int (-3)) ∧
    (L.capture = false → A.daemon ≠ .bool true → L.stdout = A.stdout ∧ L.stderr = A.stderr) ∧
    (A.daemon ≠ .bool true → L.stdin = if A.stdin.truth then A.stdin else .int (-3)) := by
  have hs : logStdioOf A (logAddrOf E A) = .bool true ↔ A.logStdio = .bool true ∨
      (A.logStdio = .none ∧ A.daemon = .bool false ∧ A.stdout = .none ∧ A.stderr = .none ∧ (A.logAddr ≠ .none ∨ E.logAddress ≠ none)) := by
    simp only [logStdioOf]
    by_cases hc : A.logStdio = .none ∧ A.stdout = .none ∧ A.stderr = .none ∧ A.daemon = .bool false
    · obtain ⟨h1, h2, h3, h4⟩ := hc
      rw [if_pos ⟨h1, h2, h3, h4⟩]
      simp only [h1, h2, h3, h4, PArg.bool.injEq, decide_eq_true_eq, reduceCtorEq, false_or, true_and, logAddrOf, PArg.truth, and_true]
      by_cases ha : A.logAddr = .none
      · rw [if_pos ha]
        cases E.logAddress <;> simp [ha]
      · rw [if_neg ha]; simp [ha]
    · rw [if_neg hc]
      constructor
      · exact .inl
      · rintro (hh | ⟨h1, h2, h3, h4, -⟩)
        · exact hh
        · exact absurd ⟨h1, h3, h4, h2⟩ hc
  rw [← hs]
  obtain ⟨lv, la, boot, -, -, -, -, -, h5⟩ := startPlan_inv E A L h
  rcases h5 with ⟨h1, h2, -, h3, h4, h5, h6⟩ | ⟨h1, h2, h3, h4, h5, h6⟩ | ⟨h1, h2, h3, h4, h5, h6⟩
  · exact ⟨by simp [h6, h2], by simp [h6], fun _ => ⟨h3, h4, h5⟩, fun _ h => absurd h1 h, fun h => absurd h1 h⟩
  · exact ⟨by simp [h6, h2], fun _ => ⟨h4, h5, h1⟩, fun h => absurd h h1, by simp [h6], fun _ => h3⟩
  · exact ⟨by simp [h6, h2], by simp [h6], fun h => absurd h h1, fun _ _ => ⟨h4, h5⟩, fun _ => h3⟩

/-- Combinations that are refused, whatever the other arguments: captured output with streams of one's own, a daemon with captured output or with streams. -/
theorem C59_refused (E : ProcEnv) (A : StartArgs)
    (h : (A.logStdio = .bool true ∧ (A.stdout ≠ .none ∨ A.stderr ≠ .none ∨ A.daemon = .bool true)) ∨
      (A.daemon = .bool true ∧ (A.stdin ≠ .none ∨ A.stdout ≠ .none ∨ A.stderr ≠ .none))) (L : Launch) : startPlan E A ≠ .ok L := by
  intro hp
  have hs : A.logStdio = .bool true → logStdioOf A (logAddrOf E A) = .bool true := fun h => by simp [logStdioOf, h]
  obtain ⟨lv, la, boot, -, -, -, -, h4, h5⟩ := startPlan_inv E A L hp
  rcases h with ⟨h1, h2⟩ | ⟨h1, h2⟩
  · have := hs h1
    have h6 : A.stdout = .none ∧ A.stderr = .none := Classical.byContradiction fun hn => h4 ⟨h1, hn⟩
    rcases h2 with h2 | h2 | h2
    · exact h2 h6.1
    · exact h2 h6.2
    · rcases h5 with h5 | h5 | h5
      · exact h5.2.1 this
      · exact h5.1 h2
      · exact h5.1 h2
  · rcases h5 with h5 | h5 | h5
    · obtain ⟨a, b, c⟩ := h5.2.2.1
      rcases h2 with h2 | h2 | h2
      · exact h2 a
      · exact h2 b
      · exact h2 c
    · exact h5.1 h1
    · exact h5.1 h1

/-- For documented types nothing else is refused: the call comes to starting the child exactly if the level exists and the combination is allowed, and a combination that is not is
an AssertionError. -/
theorem C59_accepted (E : ProcEnv) (own : Option (List Char)) (boot : List Char) (hl : E.logAddress = own.map utf8) (hb : E.bootstrap = utf8 boot) (r : StartReq) :
    ((∃ L, startPlan E r.args = .ok L) ↔ wantedLevel E r ≠ none ∧ r.Compatible) ∧
    (wantedLevel E r ≠ none → ¬ r.Compatible → startPlan E r.args = .error .assertionError) := by
  have hp := startPlan_req E own boot hl hb r
  cases hw : wantedLevel E r with
  | none =>
    rw [hw] at hp
    simp only at hp
    simp [hp]
  | some lv =>
    rw [hw] at hp
    simp only at hp
    by_cases hc : r.Compatible
    · rw [if_pos hc] at hp
      obtain ⟨L, h1, -⟩ := hp
      exact ⟨⟨fun _ => ⟨by simp, hc⟩, fun _ => ⟨L, h1⟩⟩, fun _ h => absurd hc h⟩
    · rw [if_neg hc] at hp
      refine ⟨⟨?_, fun h => absurd h.2 hc⟩, fun _ _ => hp⟩
      rintro ⟨L, h⟩
      rw [hp] at h
      cases h

/-- Output is captured by default when this process has a log server, and not otherwise. -/
example : (∃ L, startPlan (Ex.procEnv (some "tcp://127.0.0.1:9".toList)) Ex.camera.args = .ok L ∧ L.capture = true) ∧
    (∃ L, startPlan (Ex.procEnv none) Ex.camera.args = .ok L ∧ L.capture = false) := by
  constructor
  · obtain ⟨L, h⟩ := (C59_accepted (Ex.procEnv (some "tcp://127.0.0.1:9".toList)) (some "tcp://127.0.0.1:9".toList) "tcp://127.0.0.1:5555".toList rfl rfl Ex.camera).1.2 ⟨by decide +kernel, by decide +kernel⟩
    exact ⟨L, h, (C59_capture _ _ L h).1.2 (.inr ⟨rfl, rfl, rfl, rfl, .inr (by simp [Ex.procEnv])⟩)⟩
  · obtain ⟨L, h⟩ := (C59_accepted (Ex.procEnv none) none "tcp://127.0.0.1:5555".toList rfl rfl Ex.camera).1.2 ⟨by decide +kernel, by decide +kernel⟩
    refine ⟨L, h, ?_⟩
    have := (C59_capture _ _ L h).1
    cases hc : L.capture with
    | false => rfl
    | true =>
      rcases this.1 hc with h | ⟨-, -, -, -, h | h⟩
      · cases h
      · exact absurd rfl h
      · exact absurd rfl h

namespace Ex

/-! ## The theorems on these cases -/

/-- The camera's process can be started. -/
theorem camera_plan (own : Option (List Char)) : ∃ L, startPlan (procEnv own) camera.args = .ok L :=
  (C59_accepted (procEnv own) own "tcp://127.0.0.1:5555".toList rfl rfl camera).1.2 ⟨(by
    have : wantedLevel (procEnv own) camera = wantedLevel (procEnv none) camera := rfl
    rw [this]; decide +kernel), by decide +kernel⟩
example := C58_child_partial (procEnv (some "tcp://127.0.0.1:9".toList)) (some "tcp://127.0.0.1:9".toList) "tcp://127.0.0.1:5555".toList rfl rfl camera _ (camera_plan _).choose_spec
    (.inl (by decide +kernel)) 10 (by decide +kernel) (by decide +kernel)
example := C58_fails_level (procEnv none) "tcp://127.0.0.1:5555".toList rfl rfl camera rfl _ (camera_plan none).choose_spec (.inl (by decide +kernel)) 10 (by decide +kernel) (by decide +kernel)
example := C58_fails_str (procEnv none) { logAddr := .str "tcp://127.0.0.1:9".toList } _ rfl
/-- Flags given as 1. -/
def flagged : StartArgs := { qt := .int 1, daemon := .int 1 }
theorem flagged_plan : ∃ L, startPlan (procEnv none) flagged = .ok L := by
  have h : (startPlan (procEnv none) flagged).toOption.isSome = true := by decide +kernel
  cases hs : startPlan (procEnv none) flagged with
  | ok L => exact ⟨L, rfl⟩
  | error e => rw [hs] at h; cases h
example := C58_address (procEnv none) flagged _ flagged_plan.choose_spec
example := C58_fails_flags (procEnv none) flagged rfl rfl rfl rfl _ flagged_plan.choose_spec
example := C59_refused (procEnv none) { daemon := .bool true, stdout := .int 1 } (.inr ⟨rfl, .inr (.inl (by simp))⟩)

end Ex

end Verif
