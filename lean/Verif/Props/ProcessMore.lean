import Verif.Props.ProcessRun
/-!
# C58 for arguments of wrong types and odd names; C99: starting a process from end to end
-/
namespace Verif

/-- True or False, or a number equal to one of them. -/
def PArg.Flag (p : PArg) : Prop := p = .bool true ∨ p = .bool false ∨ p = .int 0 ∨ p = .int 1

/-- A text or bytes. -/
def PArg.Text (p : PArg) : Prop := (∃ s, p = .str s) ∨ ∃ b, p = .bytes b

theorem isBoolish_iff (p : PArg) : p.isBoolish = true ↔ p.Flag := by
  cases p with
  | bool b => cases b <;> simp [PArg.isBoolish, PArg.Flag]
  | int i => simp [PArg.isBoolish, PArg.Flag]
  | _ => simp [PArg.isBoolish, PArg.Flag]

theorem isText_iff (p : PArg) : p.isText = true ↔ p.Text := by
  cases p <;> simp [PArg.isText, PArg.Text]

/-- **C58** Arguments of wrong types are refused with AssertionError, before anything is started: `daemon` and `qt` other than True and False (or 0 and 1), an address that is no text,
a name that is neither None nor str, a log address that is neither None nor text, whatever the other arguments. With these right, so are a level that is neither None, a number nor
a str, and, with a level that exists, a `log_stdio` that is neither None nor a flag. -/
theorem C58_types (E : ProcEnv) (A : StartArgs) :
    (¬ A.daemon.Flag ∨ ¬ A.qt.Flag ∨ ¬ A.address.Text ∨ (A.name ≠ .none ∧ ∀ s, A.name ≠ .str s) ∨ (A.logAddr ≠ .none ∧ ¬ A.logAddr.Text) →
      startPlan E A = .error .assertionError) ∧
    (A.daemon.Flag → A.qt.Flag → A.address.Text → (A.name = .none ∨ ∃ s, A.name = .str s) → (A.logAddr = .none ∨ A.logAddr.Text) →
      (((∃ b, A.logLevel = .bytes b) ∨ A.logLevel = .other) → startPlan E A = .error .assertionError) ∧
      (∀ s, A.logLevel = .str s → E.levelOf s = none → startPlan E A = .error .attributeError) ∧
      ((A.logLevel = .none ∨ ∃ i, A.logLevel = .int i) → A.logStdio ≠ .none → ¬ A.logStdio.Flag → startPlan E A = .error .assertionError)) := by
  have hname : A.name.isName = true ↔ (A.name = .none ∨ ∃ s, A.name = .str s) := by cases A.name <;> simp [PArg.isName]
  constructor
  · intro h
    rw [startPlan]
    by_cases h1 : A.daemon.isBoolish = false
    · rw [if_pos h1]
    rw [if_neg h1]
    by_cases h2 : A.qt.isBoolish = false
    · rw [if_pos h2]
    rw [if_neg h2]
    by_cases h3 : A.address.isText = false
    · rw [if_pos h3]
    rw [if_neg h3]
    by_cases h4 : A.name.isName = false
    · rw [if_pos h4]
    rw [if_neg h4]
    by_cases h5 : A.logAddr = .none ∨ A.logAddr.isText = true
    · rw [Bool.not_eq_false, isBoolish_iff] at h1 h2
      rw [Bool.not_eq_false, isText_iff] at h3
      rw [Bool.not_eq_false, hname] at h4
      rw [isText_iff] at h5
      rcases h with h | h | h | h | h
      · exact absurd h1 h
      · exact absurd h2 h
      · exact absurd h3 h
      · rcases h4 with h4 | ⟨s, h4⟩
        · exact absurd h4 h.1
        · exact absurd h4 (h.2 s)
      · rcases h5 with h5 | h5
        · exact absurd h5 h.1
        · exact absurd h5 h.2
    · rw [if_pos h5]
  · intro h1 h2 h3 h4 h5
    rw [← isBoolish_iff] at h1 h2
    rw [← isText_iff] at h3 h5
    rw [← hname] at h4
    rw [startPlan, if_neg (by simp [h1]), if_neg (by simp [h2]), if_neg (by simp [h3]), if_neg (by simp [h4]), if_neg (fun hh => hh h5)]
    simp only
    refine ⟨?_, ?_, ?_⟩
    · rintro (⟨b, h⟩ | h) <;> simp [logLevelText, h]
    · intro s h hf
      simp [logLevelText, h, hf]
    · intro h hn hf
      rw [← isBoolish_iff] at hf
      have hno : ¬ (A.logStdio = .none ∨ A.logStdio.isBoolish = true) := not_or.2 ⟨hn, hf⟩
      rcases h with h | ⟨i, h⟩ <;> simp only [logLevelText, h, if_pos hno]

example : startPlan (Ex.procEnv none) { daemon := .int 2 } = .error .assertionError := (C58_types _ _).1 (.inl (by simp [PArg.Flag]))
example : startPlan (Ex.procEnv none) { logLevel := .other } = .error .assertionError :=
  ((C58_types _ _).2 (by simp [PArg.Flag]) (by simp [PArg.Flag]) (by simp [PArg.Text]) (.inl rfl) (.inl rfl)).1 (.inr rfl)

/-- The options behind the name, for any arguments. -/
theorem bootArgs_words {x : PArg} {lv : List Char} {la : List (List Char)} (h : logArgs x lv = .ok la) (E : ProcEnv) (A : StartArgs) (boot : List Char) :
    ∃ as : List CmdArg, (∀ a ∈ as, a.Ok) ∧ (∀ a ∈ as, a.opt ≠ .verbose) ∧ 2 ≤ (as.flatMap CmdArg.words).length ∧
      ∀ name, bootArgs E A name la boot = name :: as.flatMap CmdArg.words := by
  obtain ⟨e1, e2, e3, e4, e5⟩ := eq_texts
  have hla : ∃ as : List CmdArg, (∀ a ∈ as, a.Ok) ∧ (∀ a ∈ as, a.opt ≠ .verbose) ∧ la = as.flatMap CmdArg.words := by
    unfold logArgs at h
    split at h
    · simp only [Except.ok.injEq] at h; exact ⟨[], by simp, by simp, by rw [← h]; rfl⟩
    · split at h
      · cases h
      · next a _ =>
        simp only [Except.ok.injEq] at h
        refine ⟨[.eq BootOpt.logaddr.text .logaddr a, .eq BootOpt.loglevel.text .loglevel lv], ?_, ?_, ?_⟩
        · intro b hb
          simp only [List.mem_cons, List.not_mem_nil, or_false] at hb
          rcases hb with rfl | rfl <;> exact means_text _
        · simp [CmdArg.opt]
        · rw [← h, e2, e3]
          simp only [List.append_assoc, List.cons_append, List.nil_append]
          rfl
    · cases h
  obtain ⟨as, a1, a2, rfl⟩ := hla
  refine ⟨(if A.qt = .bool true then [.bare BootOpt.qt.text .qt] else []) ++ ((if A.daemon = .bool true then [.bare BootOpt.daemon.text .daemon] else []) ++
    (as ++ ([.eq BootOpt.listenAddr.text .listenAddr (addressText E A.address), .eq BootOpt.bootstrapAddr.text .bootstrapAddr boot] ++
      (if E.namePrefix = [] then [] else [.eq BootOpt.childNamePrefix.text .childNamePrefix E.namePrefix])))), ?_, ?_, ?_, ?_⟩
  · intro a ha
    simp only [List.mem_append] at ha
    rcases ha with ha | ha | ha | ha | ha
    · split at ha
      · simp only [List.mem_cons, List.not_mem_nil, or_false] at ha; subst ha; exact means_text _
      · cases ha
    · split at ha
      · simp only [List.mem_cons, List.not_mem_nil, or_false] at ha; subst ha; exact means_text _
      · cases ha
    · exact a1 a ha
    · simp only [List.mem_cons, List.not_mem_nil, or_false] at ha; rcases ha with rfl | rfl <;> exact means_text _
    · split at ha
      · cases ha
      · simp only [List.mem_cons, List.not_mem_nil, or_false] at ha; subst ha; exact means_text _
  · intro a ha
    simp only [List.mem_append] at ha
    rcases ha with ha | ha | ha | ha | ha
    · split at ha <;> simp only [List.mem_cons, List.not_mem_nil, or_false] at ha; subst ha; simp [CmdArg.opt]
    · split at ha <;> simp only [List.mem_cons, List.not_mem_nil, or_false] at ha; subst ha; simp [CmdArg.opt]
    · exact a2 _ ha
    · simp only [List.mem_cons, List.not_mem_nil, or_false] at ha; rcases ha with rfl | rfl <;> simp [CmdArg.opt]
    · split at ha <;> simp only [List.mem_cons, List.not_mem_nil, or_false] at ha; subst ha; simp [CmdArg.opt]
  · simp only [List.flatMap_append, List.length_append, List.flatMap_cons, List.flatMap_nil, CmdArg.words, List.length_cons, List.length_nil]
    omega
  · intro name
    simp only [bootArgs, e1, e4, e5, List.flatMap_append, List.append_assoc, List.cons_append, List.nil_append]
    split <;> split <;> by_cases h : E.namePrefix = [] <;> simp only [h, if_true, if_false] <;> rfl

/-- **C58 fails** for names that begin with a dash, unless they can be read as an option or are a name after all (a
negative number, or with a blank in it): the child ends at once with an error of its command line. -/
theorem C58_fails_dash (E : ProcEnv) (A : StartArgs) (L : Launch) (h : startPlan E A = .ok L) (hd : ¬ ArgWord (childName E A))
    (ho : ∀ t o, Means t o → childName E A ≠ t ∧ ∀ v, childName E A ≠ t ++ '=' :: v) (levelOf) (B : BootEnv) :
    bootChild levelOf B L.args = .died (.other "SystemExit") := by
  obtain ⟨lv, la, boot, -, h5, -, h4, -, -⟩ := startPlan_inv E A L h
  obtain ⟨as, -, -, hlen, hw⟩ := bootArgs_words h5 E A boot
  have : parseArgs L.args = none := by
    rw [h4, hw, parseArgs]
    by_cases hdd : childName E A = ['-', '-']
    · rw [hdd, argToks_dash]
      match as.flatMap CmdArg.words, hlen with
      | a :: b :: r, _ => simp [takeToks]
    · rw [argToks_cons hdd]
      cases ht : argTok (childName E A) with
      | stop => rfl
      | dashes => exact absurd ht (argTok_ne_dashes _)
      | value s => exact absurd (argTok_value.1 ht).2 hd
      | opt o x =>
        obtain ⟨t, hm, he⟩ := argTok_opt ht
        cases x with
        | none => exact absurd (by simpa using he) (ho t o hm).1
        | some v => exact absurd (by simpa using he) ((ho t o hm).2 v)
  rw [bootChild, this]

theorem exDash : ¬ ArgWord "-x".toList ∧ ∀ t o, Means t o → "-x".toList ≠ t ∧ ∀ v, "-x".toList ≠ t ++ '=' :: v := by
  have ht : argTok "-x".toList = .stop := by decide +kernel
  refine ⟨fun hw => ?_, fun t o hm => ⟨fun he => ?_, fun v he => ?_⟩⟩
  · rw [argTok_value.2 ⟨rfl, hw⟩] at ht; cases ht
  · rw [he, argTok_bare hm] at ht; cases ht
  · rw [he, argTok_eq hm] at ht; cases ht

example : startPlan (Ex.procEnv none) { name := .str "-x".toList } ≠ .error .assertionError ∧ childName (Ex.procEnv none) { name := .str "-x".toList } = "-x".toList := by
  decide +kernel

/-- **C58 fails** for names that can be read as an option, even abbreviated: the child has no name but that option,
written `t` or `t=v`; what start_process itself says about the option comes behind it and counts. -/
theorem C58_fails_option (E : ProcEnv) (A : StartArgs) (L : Launch) (h : startPlan E A = .ok L) {t o} (hm : Means t o) :
    (∀ v, childName E A = t ++ '=' :: v → ∃ c, parseArgs L.args = some c ∧ c.procname = none ∧ c.opts o ≠ .default ∧
      (o = .verbose → c.opts o = .given v)) ∧
    (childName E A = t → ∃ c, parseArgs L.args = some c ∧ c.procname = none ∧ c.opts o ≠ .default ∧ (o = .verbose → c.opts o = .const)) := by
  obtain ⟨lv, la, boot, -, h5, -, h4, -, -⟩ := startPlan_inv E A L h
  obtain ⟨as, h1, h2, -, hw⟩ := bootArgs_words h5 E A boot
  have hv : as.filter (fun b => decide (b.opt = .verbose)) = [] := by
    rw [List.filter_eq_nil_iff]
    intro b hb
    simpa using h2 b hb
  have hd : ∀ (a : CmdArg) (l : List CmdArg), ((((a :: l).getLast?).map CmdArg.says).getD .default) ≠ .default := by
    intro a l
    rw [List.getLast?_cons]
    cases (l.getLast?.getD a) <;> simp [CmdArg.says]
  have main : ∀ a : CmdArg, a.Ok → a.opt = o → childName E A :: as.flatMap CmdArg.words = (a :: as).flatMap CmdArg.words →
      ∃ c, parseArgs L.args = some c ∧ c.procname = none ∧ c.opts o ≠ .default ∧ (o = .verbose → c.opts o = a.says) := by
    intro a ha hao he
    have hok : (CmdLine.noName (a :: as) false).Ok := by
      intro b hb
      rcases List.mem_cons.1 hb with rfl | hb
      · exact ha
      · exact h1 b hb
    refine ⟨applyArgs { procname := none } (a :: as), ?_, applyArgs_name _ _, ?_, ?_⟩
    · rw [h4, hw, he, show (a :: as).flatMap CmdArg.words = (CmdLine.noName (a :: as) false).words by simp [CmdLine.words], parse_line _ hok]
      rfl
    · rw [applyArgs_said, said, List.filter_cons, if_pos (by simpa using hao)]
      exact hd _ _
    · intro ho
      rw [applyArgs_said, said, List.filter_cons, if_pos (by simpa using hao), ho, hv]
      rfl
  constructor
  · intro v he
    exact main (.eq t o v) hm rfl (by rw [he]; rfl)
  · intro he
    exact main (.bare t o) hm rfl (by rw [he]; rfl)

/-- Such a name. -/
example : Means "--verb".toList .verbose ∧ ¬ Means "--log".toList .logaddr ∧ ¬ Means "--l".toList .loglevel := by decide +kernel
example : ArgWord "-5".toList := .inr (.inr ⟨.inl ((negNumber_iff _).1 (by decide +kernel)), by decide +kernel, by decide +kernel⟩)
example : ArgWord "-my camera".toList := .inr (.inr ⟨.inr (by decide), by decide +kernel, by decide +kernel⟩)

/-- **C58** The level in the child: decimal digits are the number, other digits (superscripts and the like) and numbers of
more than 4300 digits end the child with ValueError, anything else is looked up as a name. -/
theorem C58_level (levelOf : List Char → Option Int) (s : List Char) :
    (s ≠ [] → (∀ c ∈ s, isUniDigit c = true) → s.length ≤ 4300 → bootLevel levelOf (.given s) = .ok (s.foldl (fun n c => 10 * n + (uniDigit c).getD 0) 0 : Nat)) ∧
    (s ≠ [] → (∀ c ∈ s, isUniDigit c = true ∨ isOtherDigit c = true) → (4300 < s.length ∨ ∃ c ∈ s, isUniDigit c = false) →
      bootLevel levelOf (.given s) = .error .valueError) ∧
    (s = [] ∨ (∃ c ∈ s, isUniDigit c = false ∧ isOtherDigit c = false) →
      bootLevel levelOf (.given s) = match levelOf s with | some i => .ok i | none => .error .attributeError) := by
  have hd : isDigits s = true ↔ s ≠ [] ∧ ∀ c ∈ s, isUniDigit c = true ∨ isOtherDigit c = true := by cases s <;> simp [isDigits]
  refine ⟨fun h1 h2 h3 => ?_, fun h1 h2 h3 => ?_, fun h => ?_⟩
  · have ha : s.all isUniDigit = true := by simpa using h2
    rw [bootLevel]; simp only [hd.2 ⟨h1, fun c hc => .inl (h2 c hc)⟩, ha, if_true, intOfDigits]; rw [if_neg (by omega)]
  · rw [bootLevel]; simp only [hd.2 ⟨h1, h2⟩, if_true, intOfDigits]
    split
    · next ha =>
      rcases h3 with h3 | ⟨c, hc, h3⟩
      · rw [if_pos (by omega)]
      · rw [List.all_eq_true.1 ha c hc] at h3; cases h3
    · rfl
  · have : ¬ isDigits s = true := by
      rw [hd]
      rintro ⟨h1, h2⟩
      rcases h with h | ⟨c, hc, h, h'⟩
      · exact h1 h
      · rcases h2 c hc with hx | hx
        · rw [hx] at h; cases h
        · rw [hx] at h'; cases h'
    rw [bootLevel]; simp only [if_neg this]
    cases levelOf s <;> rfl

example : isOtherDigit '²' = true ∧ isUniDigit '²' = false ∧ isOtherDigit '5' = false := by decide +kernel

/-! ## C99 -/

/-- A history of the report for this child: it comes to its report as the script does with these arguments. -/
def ReportOf (o : BootOut) (es : List ReportEv) : Prop := ∀ o', .ready o' ∈ es → o' = o

/-- **C99** For every request of documented types, every environment and history: if the call comes to starting the child, the child can be set up, and its server is bound at `a`
for the listening address asked for, then the child reports this address and its pid; whatever the parent then gets, it acknowledges, connects to `a`, and returns a process of the
kind asked for: a daemon with the pid of the child, or a child. -/
theorem C99_started (E : ProcEnv) (own : Option (List Char)) (boot : List Char) (hl : E.logAddress = own.map utf8) (hb : E.bootstrap = utf8 boot) (r : StartReq)
    (L : Launch) (h : startPlan E r.args = .ok L) (hn : ArgWord (wantedName E r)) (n : Nat) (hlv : wantedLevel E r = some (n : Int))
    (hd : (Nat.toDigits 10 n).length ≤ 4300) (B : BootEnv) (hq : r.qt = true → B.qtOk = true) (hlog : ∀ x, wantedLog own r = some x → B.logOk (utf8 x) = true)
    (a : Bytes) (hs : B.server (some r.address) = .ok a) :
    bootChild E.levelOf B L.args = .ready (.address a B.pid) ∧
    ∀ es, ReportOf (bootChild E.levelOf B L.args) es → ∀ st, (ReportSt.run {} es).parent = .got st → ∀ poll,
      parentFinish r.daemon poll (some st) = ([.ok, .connect a], .ok (if r.daemon = true then .daemon a B.pid else .child a)) := by
  obtain ⟨⟨c, h1, h2⟩, -⟩ := C58_child_partial E own boot hl hb r L h hn n hlv hd
  have hboot : bootChild E.levelOf B L.args = .ready (.address a B.pid) := by
    rw [bootChild, h1]
    simp only [h2]
    rw [if_neg (by simp only [wantedChild]; intro hc; rw [hq hc.1] at hc; cases hc.2), if_neg]
    · have : formatKeys ["procname", "class_name", "listen_addr", "logaddr", "loglevel"] = .ok () := by decide
      simp only [this, wantedChild, hs]
    · simp only [wantedChild]
      cases hw : wantedLog own r with
      | none => simp
      | some x => simp [hlog x hw]
  refine ⟨hboot, fun es hes st hst poll => ?_⟩
  have := hes _ (C79_status es st hst)
  rw [hboot] at this
  cases this
  rfl

/-- **C99** And the parent does get it, if it still waits when the child has sent its report. -/
theorem C99_returns (o : BootOut) (es : List ReportEv) (ho : ReportOf o es) (h : ReportSent es) (hw : (ReportSt.run {} es).parent = .waiting) :
    ∃ st, o = .ready st ∧ (ReportSt.run {} (es ++ [.recv])).parent = .got st := by
  obtain ⟨st, h1, -, h2⟩ := C79_received es h hw
  exact ⟨st, (ho _ h2).symm, h1⟩

/-- **C99** A child that cannot be set up is never taken for a started one: with a command line the script does not accept, a level that does not exist, without the Qt asked for, with
a log address that is refused, or with an address the server cannot be bound to, `start_process` does not return. -/
theorem C99_failed (levelOf) (B : BootEnv) (args : List (List Char))
    (hbad : parseArgs args = none ∨ ∃ c, parseArgs args = some c ∧ ((∃ e, childSetup levelOf c = .error e) ∨ ∃ k, childSetup levelOf c = .ok k ∧
      ((k.qt = true ∧ B.qtOk = false) ∨ (∃ x, k.logAddr = some x ∧ B.logOk x = false) ∨ ∃ e, B.server k.listen = .error e)))
    (es : List ReportEv) (hes : ReportOf (bootChild levelOf B args) es) (st : BootStatus) : (ReportSt.run {} es).parent ≠ .got st := by
  have hdied : ∃ e, bootChild levelOf B args = .died e := by
    rw [bootChild]
    rcases hbad with hp | ⟨c, hp, ⟨e, he⟩ | ⟨k, hk, hbad⟩⟩
    · rw [hp]; exact ⟨_, rfl⟩
    · rw [hp]; simp only [he]; exact ⟨_, rfl⟩
    · rw [hp]
      simp only [hk]
      by_cases h1 : k.qt = true ∧ B.qtOk = false
      · rw [if_pos h1]; exact ⟨_, rfl⟩
      rw [if_neg h1]
      by_cases h2 : k.logAddr.all B.logOk = true
      · rw [if_neg (by simpa using h2)]
        rcases hbad with h | ⟨x, hx, hl⟩ | ⟨e, he⟩
        · exact absurd h h1
        · rw [hx] at h2; simp [hl] at h2
        · rw [he]
          have h1 : formatKeys ["procname", "class_name", "listen_addr", "logaddr", "loglevel"] = .ok () := by decide
          have h2 : formatKeys ["class_name", "args"] = .error .keyError := by decide
          simp only [h1, h2]
          exact ⟨_, rfl⟩
      · rw [if_pos h2]; exact ⟨_, rfl⟩
  obtain ⟨e, he⟩ := hdied
  exact C60_fails_timeout es (fun o ho => ⟨e, by rw [hes o ho, he]⟩) st

/-- A camera process, started and heard. -/
example : ∃ L, startPlan (Ex.procEnv none) Ex.camera.args = .ok L ∧
    bootChild (Ex.procEnv none).levelOf { Ex.noBind with server := fun _ => .ok [1] } L.args = .ready (.address [1] 77) ∧
    ReportOf (.ready (.address [1, 2] 77)) Ex.heard := by
  obtain ⟨L, h⟩ := (C59_accepted (Ex.procEnv none) none "tcp://127.0.0.1:5555".toList rfl rfl Ex.camera).1.2 ⟨by decide +kernel, by decide +kernel⟩
  refine ⟨L, h, (C99_started (Ex.procEnv none) none "tcp://127.0.0.1:5555".toList rfl rfl Ex.camera L h (.inl (by decide +kernel)) 10 (by decide +kernel) (by decide +kernel)
    { Ex.noBind with server := fun _ => .ok [1] } (by decide +kernel) (by simp [wantedLog, Ex.camera]) [1] rfl).1, ?_⟩
  intro o ho
  simpa [Ex.heard] using ho

namespace Ex

/-! ## The theorems on these cases -/

/-- Names that are options. -/
theorem named_plan (n : String) (h : n = "-x" ∨ n = "--verb" ∨ n = "--verb=7") : ∃ L, startPlan (procEnv none) { name := .str n.toList } = .ok L := by
  have h : (startPlan (procEnv none) { name := .str n.toList }).toOption.isSome = true := by rcases h with rfl | rfl | rfl <;> decide +kernel
  cases hs : startPlan (procEnv none) { name := .str n.toList } with
  | ok L => exact ⟨L, rfl⟩
  | error e => rw [hs] at h; cases h
example := (C58_fails_option (procEnv none) _ _ (named_plan "--verb" (by simp)).choose_spec (t := "--verb".toList) (o := .verbose) (by decide +kernel)).2 (by decide +kernel)
example := (C58_fails_option (procEnv none) _ _ (named_plan "--verb=7" (by simp)).choose_spec (t := "--verb".toList) (o := .verbose) (by decide +kernel)).1 "7".toList (by decide +kernel)
example := C99_returns (.ready (.address [1, 2] 77)) (heard.take 3) (by intro o ho; simpa [heard] using ho)
  ⟨heard.take 2, [], .address [1, 2] 77, 2000, rfl, by decide, by decide⟩ (by decide)
example := C99_failed (fun _ => none) noBind ["child".toList, "--what".toList] (.inl (by decide +kernel)) [.tick 3, .ready _, .pass]
  (by intro o ho; simpa using ho)

end Ex

namespace Ex
theorem dash_name : childName (procEnv none) { name := .str "-x".toList } = ['-', 'x'] := by decide +kernel
theorem dash_not_word : ¬ ArgWord (childName (procEnv none) { name := .str "-x".toList }) := by
  rw [dash_name]
  rintro (h | h | ⟨h | h, -⟩)
  · simp at h
  · simp at h
  · obtain ⟨i, f, e, he, hi, ⟨h, hne⟩ | ⟨h, hne⟩⟩ := h
    · cases i with
      | nil => exact hne rfl
      | cons c i =>
        simp only [List.cons_append, List.cons.injEq] at h
        have := hi c (by simp)
        rw [← h.2.1] at this
        exact absurd this (by decide +kernel)
    · cases i with
      | nil => simp at h
      | cons c i =>
        simp only [List.cons_append, List.cons.injEq] at h
        have := hi c (by simp)
        rw [← h.2.1] at this
        exact absurd this (by decide +kernel)
  · simp at h
theorem dash_no_option (t : List Char) (o : BootOpt) (hm : Means t o) :
    childName (procEnv none) { name := .str "-x".toList } ≠ t ∧ ∀ v, childName (procEnv none) { name := .str "-x".toList } ≠ t ++ '=' :: v := by
  rw [dash_name]
  refine ⟨fun h => ?_, fun v h => ?_⟩
  · subst h
    exact absurd hm (by cases o <;> decide +kernel)
  · have : '=' ∈ ['-', 'x'] := by rw [h]; simp
    simp at this
example := C58_fails_dash (procEnv none) _ _ (named_plan "-x" (by simp)).choose_spec dash_not_word dash_no_option (fun _ => none) noBind
end Ex

end Verif
