import Verif.Model.Shell
import Verif.Props.ProcessMore
/-!
# C114: starting processes through the shell

Model: `Verif/Model/Shell.lean`.
-/
namespace Verif

/-- A word the shell leaves as it is: not empty, no blanks, no special characters; if it has a `*`, no file matches it. -/
def ShellSafe (glob : List Char → List (List Char)) (w : List Char) : Prop :=
  w ≠ [] ∧ (∀ c ∈ w, c ≠ ' ' ∧ c ≠ '\t' ∧ c ∉ shSpecial) ∧ ('*' ∈ w → glob w = [])

theorem shSplit_word (w : List Char) (hw : ∀ c ∈ w, c ≠ ' ' ∧ c ≠ '\t') (r cur : List Char) : shSplit (w ++ r) cur = shSplit r (cur ++ w) := by
  induction w generalizing cur with
  | nil => simp
  | cons c w ih =>
    have h := hw c (by simp)
    simp only [List.cons_append, shSplit, h.1, h.2, or_self, if_false]
    rw [ih (fun x hx => hw x (by simp [hx]))]
    simp

theorem shSplit_sep (a r cur : List Char) : shSplit (a ++ ' ' :: r) cur = shSplit a cur ++ shSplit r [] := by
  induction a generalizing cur with
  | nil => simp [shSplit]
  | cons c a ih =>
    simp only [List.cons_append, shSplit]
    split
    · rw [ih, List.append_assoc]
    · rw [ih]

theorem shSplit_join (ws : List (List Char)) (h : ∀ w ∈ ws, w ≠ [] ∧ ∀ c ∈ w, c ≠ ' ' ∧ c ≠ '\t') : shSplit (joinCmd ws) [] = ws := by
  have hone : ∀ w : List Char, w ≠ [] → (∀ c ∈ w, c ≠ ' ' ∧ c ≠ '\t') → shSplit w [] = [w] := by
    intro w hw hc
    have := shSplit_word w hc [] []
    rw [List.append_nil, List.nil_append] at this
    rw [this, shSplit]
    cases w with
    | nil => exact absurd rfl hw
    | cons c w => rfl
  induction ws with
  | nil => rfl
  | cons w ws ih =>
    obtain ⟨h1, h2⟩ := h w (by simp)
    cases ws with
    | nil => exact hone w h1 h2
    | cons w' ws =>
      rw [joinCmd, shSplit_sep, hone w h1 h2, ih fun x hx => h x (by simp [hx])]
      · rfl
      · simp

/-- The characters of the joined text are those of the words, and spaces. -/
theorem joinCmd_mem (ws : List (List Char)) (c : Char) (h : c ∈ joinCmd ws) : c = ' ' ∨ ∃ w ∈ ws, c ∈ w := by
  induction ws with
  | nil => cases h
  | cons w ws ih =>
    cases ws with
    | nil => exact .inr ⟨w, by simp, h⟩
    | cons w' ws =>
      simp only [joinCmd, List.mem_append, List.mem_cons] at h
      rcases h with h | h | h
      · exact .inr ⟨w, by simp, h⟩
      · exact .inl h
      · rcases ih (by simpa [joinCmd] using h) with h | ⟨x, hx, hc⟩
        · exact .inl h
        · exact .inr ⟨x, by simp only [List.mem_cons] at hx ⊢; exact .inr hx, hc⟩

/-- **C114, partial.** For every command whose words the shell leaves as they are: with `shell=True` the same program runs with the same arguments as without. Missing: words with blanks, empty
words and characters the shell knows (`C114_fails_name`, `C114_fails_empty`); values of `shell` that are true without being True (`C114_fails_truthy`). -/
theorem C114_same_partial (glob) (exe : List Char) (args : List (List Char)) (he : '=' ∉ exe) (h : ∀ w ∈ exe :: args, ShellSafe glob w) :
    finalArgv glob (popenArgv (.bool true) (exe :: args)) = some (exe :: args) := by
  have h1 : shSplit (joinCmd (exe :: args)) [] = exe :: args := shSplit_join _ fun w hw => ⟨(h w hw).1, fun c hc => ⟨((h w hw).2.1 c hc).1, ((h w hw).2.1 c hc).2.1⟩⟩
  have h2 : (joinCmd (exe :: args)).any (shSpecial.contains ·) = false := by
    rw [List.any_eq_false]
    intro c hc
    rcases joinCmd_mem _ c hc with rfl | ⟨w, hw, hcw⟩
    · decide
    · have := ((h w hw).2.1 c hcw).2.2
      simpa using this
  have h3 : ∀ ws : List (List Char), (∀ w ∈ ws, ShellSafe glob w) → ws.flatMap (shExpand glob) = ws := by
    intro ws hws
    induction ws with
    | nil => rfl
    | cons w ws ih =>
      have : shExpand glob w = [w] := by
        unfold shExpand
        rw [if_neg]
        rintro ⟨ha, hb⟩
        exact hb ((hws w (by simp)).2.2 ha)
      rw [List.flatMap_cons, this, ih fun x hx => hws x (by simp [hx])]
      rfl
  simp only [popenArgv, if_true, PArg.truth, finalArgv, shRun, h2, Bool.false_eq_true, if_false, h1, he]
  rw [h3 _ h]

/-- The command line of a launch. -/
theorem startPlan_cmd {E : ProcEnv} {A : StartArgs} {L : Launch} (h : startPlan E A = .ok L) : L.cmd = bootCmd E A L.args := by
  simp only [startPlan] at h
  generalize logStdioOf A (logAddrOf E A) = q at h
  repeat' (split at h)
  all_goals first | cases h; rfl | cases h

/-- The first word and the others. -/
theorem bootCmd_cases (E : ProcEnv) (A : StartArgs) (args : List (List Char)) :
    (∃ exe, A.condaEnv = none ∧ bootCmd E A args = exe :: "-u".toList :: "-m".toList :: "teleprox.bootstrap".toList :: args) ∨
    (∃ c exe, A.condaEnv = some c ∧ bootCmd E A args = "conda".toList :: "run".toList :: "--no-capture-output".toList :: "-n".toList :: c :: exe :: "-u".toList :: "-m".toList :: "teleprox.bootstrap".toList :: args) := by
  unfold bootCmd
  cases hc : A.condaEnv with
  | none => exact .inl ⟨_, rfl, rfl⟩
  | some c => exact .inr ⟨c, _, rfl, rfl⟩

/-- **C114** Without the shell, the program that runs is the command, whatever its words are. -/
theorem C114_direct (glob) (E : ProcEnv) (A : StartArgs) (L : Launch) (h : startPlan E A = .ok L) (shell : PArg) (hs : shell.truth = false) :
    finalArgv glob (popenArgv shell L.cmd) = some L.cmd := by
  have hn : shell ≠ .bool true := by rintro rfl; cases hs
  have h1 : ¬ "-u".toList = "-c".toList := by decide
  have h2 : ¬ "run".toList = "-c".toList := by decide
  rw [startPlan_cmd h]
  simp only [popenArgv, hn, if_false, hs, Bool.false_eq_true]
  rcases bootCmd_cases E A L.args with ⟨exe, -, hb⟩ | ⟨c, exe, -, hb⟩
  · rw [hb]; simp only [finalArgv, h1, if_false]
  · rw [hb]; simp only [finalArgv, h2, if_false]

theorem shSplit_flat (ws : List (List Char)) : shSplit (joinCmd ws) [] = ws.flatMap (shSplit · []) := by
  induction ws with
  | nil => rfl
  | cons w ws ih =>
    cases ws with
    | nil => simp [joinCmd]
    | cons w' ws => rw [joinCmd, shSplit_sep, ih]; rfl; simp

theorem shSplit_safe {w : List Char} (h1 : w ≠ []) (h2 : ∀ c ∈ w, c ≠ ' ' ∧ c ≠ '\t') : shSplit w [] = [w] :=
  shSplit_join [w] (by simpa using ⟨h1, h2⟩)

theorem shExpand_plain (glob) {w : List Char} (h : '*' ∉ w) : shExpand glob w = [w] := by
  unfold shExpand; rw [if_neg]; exact fun hh => h hh.1

/-- What `sh` runs for such a command. -/
theorem shell_words (glob) (exe : List Char) (args : List (List Char)) (hx : exe ≠ [] ∧ ∀ c ∈ exe, c ≠ ' ' ∧ c ≠ '\t' ∧ c ≠ '=' ∧ c ≠ '*')
    (hs : ∀ w ∈ exe :: args, ∀ c ∈ w, c ∉ shSpecial) :
    finalArgv glob (popenArgv (.bool true) (exe :: "-u".toList :: "-m".toList :: "teleprox.bootstrap".toList :: args)) =
      some (exe :: "-u".toList :: "-m".toList :: "teleprox.bootstrap".toList :: (args.flatMap (shSplit · [])).flatMap (shExpand glob)) := by
  have hany : (joinCmd (exe :: "-u".toList :: "-m".toList :: "teleprox.bootstrap".toList :: args)).any (shSpecial.contains ·) = false := by
    rw [List.any_eq_false]
    intro c hc
    have : c ∉ shSpecial := by
      rcases joinCmd_mem _ c hc with rfl | ⟨w, hw, hcw⟩
      · decide
      · simp only [List.mem_cons] at hw
        rcases hw with rfl | rfl | rfl | rfl | hw
        · exact hs _ (by simp) c hcw
        · exact (by decide : ∀ c ∈ "-u".toList, c ∉ shSpecial) c hcw
        · exact (by decide : ∀ c ∈ "-m".toList, c ∉ shSpecial) c hcw
        · exact (by decide : ∀ c ∈ "teleprox.bootstrap".toList, c ∉ shSpecial) c hcw
        · exact hs w (by simp [hw]) c hcw
    simpa using this
  have he : shSplit exe [] = [exe] := shSplit_safe hx.1 fun c hc => ⟨(hx.2 c hc).1, (hx.2 c hc).2.1⟩
  have h1 : shSplit "-u".toList [] = ["-u".toList] := by decide
  have h2 : shSplit "-m".toList [] = ["-m".toList] := by decide
  have h3 : shSplit "teleprox.bootstrap".toList [] = ["teleprox.bootstrap".toList] := by decide
  have e0 := shExpand_plain glob (w := exe) fun h => (hx.2 _ h).2.2.2 rfl
  have e1 := shExpand_plain glob (w := "-u".toList) (by decide)
  have e2 := shExpand_plain glob (w := "-m".toList) (by decide)
  have e3 := shExpand_plain glob (w := "teleprox.bootstrap".toList) (by decide)
  have hq : '=' ∉ exe := fun h => (hx.2 _ h).2.2.1 rfl
  simp only [popenArgv, if_true, PArg.truth, finalArgv, shRun, hany, Bool.false_eq_true, if_false, shSplit_flat]
  simp only [List.flatMap_cons, he, h1, h2, h3, List.cons_append, List.nil_append, hq, if_false, e0, e1, e2, e3]

/-- **C114** The bootstrap script runs exactly if Python is started with `-u -m teleprox.bootstrap`, and what follows are its arguments. -/
theorem C114_script (run args : List (List Char)) :
    scriptArgs run = some args ↔ ∃ exe, run = exe :: "-u".toList :: "-m".toList :: "teleprox.bootstrap".toList :: args := by
  constructor
  · intro h
    unfold scriptArgs at h
    split at h
    · split at h
      · rename_i hh
        obtain ⟨rfl, rfl, rfl⟩ := hh
        cases h
        exact ⟨_, rfl⟩
      · cases h
    · cases h
  · rintro ⟨exe, rfl⟩
    simp [scriptArgs]

/-- **C114 fails** for a name with a blank in it: the child gets it as several arguments and ends at once with an error of its command line; nothing is ever reported to the parent, which
gives up after ten seconds. For every name of two or more words, none of which looks like an option or a pattern. -/
theorem C114_fails_name (glob) (E : ProcEnv) (A : StartArgs) (L : Launch) (h : startPlan E A = .ok L) (exe : List Char) (rest : List (List Char)) (hc : L.cmd = exe :: rest) (hco : A.condaEnv = none)
    (hx : exe ≠ [] ∧ ∀ c ∈ exe, c ≠ ' ' ∧ c ≠ '\t' ∧ c ≠ '=' ∧ c ≠ '*') (hs : ∀ w ∈ exe :: L.args, ∀ c ∈ w, c ∉ shSpecial)
    (w1 w2 : List Char) (ws : List (List Char)) (hn : shSplit (childName E A) [] = w1 :: w2 :: ws) (h1 : ArgWord w1 ∧ '*' ∉ w1) (h2 : ArgWord w2 ∧ '*' ∉ w2) :
    ∃ run args, finalArgv glob (popenArgv (.bool true) L.cmd) = some run ∧ scriptArgs run = some args ∧
      ∀ levelOf B, bootChild levelOf B args = .died (.other "SystemExit") ∧
        ∀ es, ReportOf (bootChild levelOf B args) es → ∀ st, (ReportSt.run {} es).parent ≠ .got st := by
  obtain ⟨lv, la, boot, -, -, -, h4, -, -⟩ := startPlan_inv E A L h
  have hargs : ∃ r, L.args = childName E A :: r := ⟨_, by rw [h4, bootArgs]; rfl⟩
  obtain ⟨r, hr⟩ := hargs
  have hcmd := startPlan_cmd h
  rcases bootCmd_cases E A L.args with ⟨exe', -, hb⟩ | ⟨c, exe', hcc, -⟩
  · have hexe : exe' = exe := by rw [hcmd, hb] at hc; simp only [List.cons.injEq] at hc; exact hc.1
    subst hexe
    refine ⟨_, (L.args.flatMap (shSplit · [])).flatMap (shExpand glob), by rw [hcmd, hb]; exact shell_words glob exe' L.args hx hs, ?_, ?_⟩
    · simp [scriptArgs]
    · intro levelOf B
      have hd : bootChild levelOf B ((L.args.flatMap (shSplit · [])).flatMap (shExpand glob)) = .died (.other "SystemExit") := by
        have hp : parseArgs ((L.args.flatMap (shSplit · [])).flatMap (shExpand glob)) = none := by
          rw [hr]
          simp only [List.flatMap_cons, hn, List.cons_append, shExpand_plain glob h1.2, shExpand_plain glob h2.2, List.nil_append]
          rw [parseArgs, argToks_word h1.1, argToks_word h2.1]
          simp [takeToks]
        rw [bootChild, hp]
      refine ⟨hd, fun es hes st => C60_fails_timeout es (fun o ho => ⟨.other "SystemExit", ?_⟩) st⟩
      rw [hes o ho, hd]
  · rw [hco] at hcc; cases hcc

/-- **C114 fails** for an empty name: the shell drops it, so that the child has no name (it keeps its default one); without the shell its name is empty. Here the other words are such that the
shell leaves them as they are. -/
theorem C114_fails_empty (glob) (E : ProcEnv) (A : StartArgs) (L : Launch) (h : startPlan E A = .ok L) (exe : List Char) (rest : List (List Char)) (hc : L.cmd = exe :: rest) (hco : A.condaEnv = none)
    (hx : exe ≠ [] ∧ ∀ c ∈ exe, c ≠ ' ' ∧ c ≠ '\t' ∧ c ≠ '=' ∧ c ≠ '*' ∧ c ∉ shSpecial) (hs : ∀ w ∈ L.args.tail, ShellSafe glob w) (hn : childName E A = []) :
    ∃ run, finalArgv glob (popenArgv (.bool true) L.cmd) = some run ∧ scriptArgs run = some L.args.tail ∧ (∀ c, parseArgs L.args.tail = some c → c.procname = none) ∧
      ∀ c, parseArgs L.args = some c → c.procname = some [] := by
  obtain ⟨lv, la, boot, -, h5, -, h4, -, -⟩ := startPlan_inv E A L h
  have hcmd := startPlan_cmd h
  obtain ⟨as, has, -, -, hwords⟩ := bootArgs_words h5 E A boot
  have hargs : ∃ r, L.args = [] :: r := ⟨_, by rw [h4, bootArgs, hn]; rfl⟩
  obtain ⟨r, hr⟩ := hargs
  rcases bootCmd_cases E A L.args with ⟨exe', -, hb⟩ | ⟨c, exe', hcc, -⟩
  · have hexe : exe' = exe := by rw [hcmd, hb] at hc; simp only [List.cons.injEq] at hc; exact hc.1
    subst hexe
    have hsafe : ∀ w ∈ exe' :: L.args, ∀ c ∈ w, c ∉ shSpecial := by
      intro w hw c hcw
      rw [hr] at hw hs
      simp only [List.mem_cons, List.tail_cons] at hw hs
      rcases hw with rfl | rfl | hw
      · exact (hx.2 c hcw).2.2.2.2
      · cases hcw
      · exact ((hs w hw).2.1 c hcw).2.2
    have hw := shell_words glob exe' L.args ⟨hx.1, fun c hc => ⟨(hx.2 c hc).1, (hx.2 c hc).2.1, (hx.2 c hc).2.2.1, (hx.2 c hc).2.2.2.1⟩⟩ hsafe
    have hflat : (L.args.flatMap (shSplit · [])).flatMap (shExpand glob) = L.args.tail := by
      rw [hr] at hs ⊢
      simp only [List.flatMap_cons, List.tail_cons] at hs ⊢
      rw [show shSplit [] [] = [] from rfl, List.nil_append]
      clear hr hsafe hw
      induction r with
      | nil => rfl
      | cons w r ih =>
        have hw := hs w (by simp)
        have he : shExpand glob w = [w] := by
          unfold shExpand
          rw [if_neg]
          rintro ⟨ha, hb⟩
          exact hb (hw.2.2 ha)
        rw [List.flatMap_cons, shSplit_safe hw.1 fun c hc => ⟨(hw.2.1 c hc).1, (hw.2.1 c hc).2.1⟩]
        simp only [List.cons_append, List.nil_append, List.flatMap_cons, he]
        rw [ih fun x hx => hs x (by simp [hx])]
    refine ⟨_, by rw [hcmd, hb]; exact hw, by rw [hflat]; simp [scriptArgs], fun c hp => ?_, fun c hp => ?_⟩
    · have ht : L.args.tail = (CmdLine.noName as false).words := by rw [h4, hwords]; simp [CmdLine.words]
      rw [ht, parse_line _ (show (CmdLine.noName as false).Ok from has), Option.some.injEq] at hp
      rw [← hp]
      exact applyArgs_name _ _
    · have ht : L.args = (CmdLine.named [] [] as false).words := by rw [h4, hwords, hn]; simp [CmdLine.words]
      have hok : (CmdLine.named [] [] as false).Ok := ⟨by simp, has, .inl (by simp), by simp, by simp⟩
      rw [ht, parse_line _ hok, Option.some.injEq] at hp
      rw [← hp]
      exact applyArgs_name _ _
  · rw [hco] at hcc; cases hcc

/-- **C114 fails** for values that are true without being True, such as 1: only the program is started, without any arguments, so that the script does not run and nothing is reported. -/
theorem C114_fails_truthy (glob) (E : ProcEnv) (A : StartArgs) (L : Launch) (h : startPlan E A = .ok L) (exe : List Char) (rest : List (List Char)) (hc : L.cmd = exe :: rest)
    (hx : exe ≠ [] ∧ ∀ c ∈ exe, c ≠ ' ' ∧ c ≠ '\t' ∧ c ≠ '=' ∧ c ≠ '*' ∧ c ∉ shSpecial) (shell : PArg) (h1 : shell.truth = true) (h2 : shell ≠ .bool true) :
    finalArgv glob (popenArgv shell L.cmd) = some [exe] ∧ scriptArgs [exe] = none := by
  refine ⟨?_, rfl⟩
  have hany : exe.any (shSpecial.contains ·) = false := by
    rw [List.any_eq_false]
    intro c hc
    simpa using (hx.2 c hc).2.2.2.2
  have hsp : shSplit exe [] = [exe] := shSplit_safe hx.1 fun c hc => ⟨(hx.2 c hc).1, (hx.2 c hc).2.1⟩
  have hq : '=' ∉ exe := fun h => (hx.2 _ h).2.2.1 rfl
  simp only [popenArgv, h2, if_false, h1, if_true, hc, finalArgv, shRun, hany, Bool.false_eq_true, hsp, hq, List.flatMap_cons, List.flatMap_nil,
    shExpand_plain glob (w := exe) fun h => (hx.2 _ h).2.2.2.1 rfl, List.append_nil]

/-- **C114, partial** (processes) For every launch whose words the shell leaves as they are: with `shell=True` as without, the command itself runs, and (without conda) the script gets the
arguments meant for it, so that all that is said of the child in C58 and C99 holds. Missing: as in `C114_same_partial`. -/
theorem C114_child_partial (glob) (E : ProcEnv) (A : StartArgs) (L : Launch) (h : startPlan E A = .ok L) (hs : ∀ w ∈ L.cmd, ShellSafe glob w) (he : ∀ exe ∈ L.cmd.head?, '=' ∉ exe) :
    finalArgv glob (popenArgv (.bool true) L.cmd) = some L.cmd ∧ finalArgv glob (popenArgv (.bool false) L.cmd) = some L.cmd ∧ (A.condaEnv = none → scriptArgs L.cmd = some L.args) := by
  refine ⟨?_, C114_direct glob E A L h _ rfl, fun hco => ?_⟩
  · cases hc : L.cmd with
    | nil =>
      have := startPlan_cmd h
      rcases bootCmd_cases E A L.args with ⟨exe, -, hb⟩ | ⟨c, exe, -, hb⟩ <;> rw [hb, hc] at this <;> cases this
    | cons exe args =>
      rw [hc] at hs he
      exact C114_same_partial glob exe args (he exe rfl) hs
  · rw [startPlan_cmd h]
    rcases bootCmd_cases E A L.args with ⟨exe, -, hb⟩ | ⟨c, exe, hcc, -⟩
    · rw [hb]; simp [scriptArgs]
    · rw [hco] at hcc; cases hcc

namespace Ex

/-- C114: a launch with the default arguments; no file matches the address. -/
example : ∃ L, startPlan (procEnv none) {} = .ok L ∧ (∀ w ∈ L.cmd, ShellSafe (fun _ => []) w) ∧ ∀ exe ∈ L.cmd.head?, '=' ∉ exe := by
  refine ⟨_, rfl, ?_, ?_⟩
  · unfold ShellSafe; decide +kernel
  · decide +kernel
/-- C114: a name with a blank. -/
example : ∃ L rest, startPlan (procEnv none) { name := .str "my child".toList } = .ok L ∧ L.cmd = (procEnv none).python :: rest ∧
    shSplit (childName (procEnv none) { name := .str "my child".toList }) [] = ["my".toList, "child".toList] ∧ ∀ w ∈ (procEnv none).python :: L.args, ∀ c ∈ w, c ∉ shSpecial := by
  refine ⟨_, _, rfl, rfl, ?_, ?_⟩ <;> decide +kernel
/-- C114: an empty name. -/
example : ∃ L, startPlan (procEnv none) { name := .str [] } = .ok L ∧ childName (procEnv none) { name := .str [] } = [] ∧ ∀ w ∈ L.args.tail, ShellSafe (fun _ => []) w := by
  refine ⟨_, rfl, by decide +kernel, ?_⟩
  unfold ShellSafe; decide +kernel
example : finalArgv (fun _ => []) (popenArgv (.int 1) ["python".toList, "-u".toList]) = some ["python".toList] := by decide +kernel

end Ex

namespace Ex

/-! ## The theorems on these cases -/

example := C114_same_partial (fun _ => []) "python".toList ["-u".toList, "child".toList] (by decide +kernel) (by unfold ShellSafe; decide +kernel)
theorem default_plan : ∃ L, startPlan (procEnv none) {} = .ok L ∧ (∀ w ∈ L.cmd, ShellSafe (fun _ => []) w) ∧ ∀ exe ∈ L.cmd.head?, '=' ∉ exe := by
  refine ⟨_, rfl, ?_, ?_⟩
  · unfold ShellSafe; decide +kernel
  · decide +kernel
example := C114_direct (fun _ => []) (procEnv none) {} _ default_plan.choose_spec.1 .none rfl
example := C114_child_partial (fun _ => []) (procEnv none) {} _ default_plan.choose_spec.1 default_plan.choose_spec.2.1 default_plan.choose_spec.2.2
theorem blank_plan : ∃ L rest, startPlan (procEnv none) { name := .str "my child".toList } = .ok L ∧ L.cmd = (procEnv none).python :: rest ∧
    shSplit (childName (procEnv none) { name := .str "my child".toList }) [] = ["my".toList, "child".toList] ∧ ∀ w ∈ (procEnv none).python :: L.args, ∀ c ∈ w, c ∉ shSpecial := by
  refine ⟨_, _, rfl, rfl, ?_, ?_⟩ <;> decide +kernel
example := C114_fails_name (fun _ => []) (procEnv none) { name := .str "my child".toList } _ blank_plan.choose_spec.choose_spec.1 _ _ blank_plan.choose_spec.choose_spec.2.1 rfl
  (by decide +kernel) blank_plan.choose_spec.choose_spec.2.2.2 _ _ _ blank_plan.choose_spec.choose_spec.2.2.1 ⟨.inl (by decide +kernel), by decide +kernel⟩ ⟨.inl (by decide +kernel), by decide +kernel⟩
theorem empty_plan : ∃ L rest, startPlan (procEnv none) { name := .str [] } = .ok L ∧ L.cmd = (procEnv none).python :: rest ∧ ∀ w ∈ L.args.tail, ShellSafe (fun _ => []) w := by
  refine ⟨_, _, rfl, rfl, ?_⟩
  unfold ShellSafe; decide +kernel
example := C114_fails_empty (fun _ => []) (procEnv none) { name := .str [] } _ empty_plan.choose_spec.choose_spec.1 _ _ empty_plan.choose_spec.choose_spec.2.1 rfl
  (by decide +kernel) empty_plan.choose_spec.choose_spec.2.2 (by decide +kernel)
/-- `shell=1` is true without being `True`. -/
example := C114_fails_truthy (fun _ => []) (procEnv none) { name := .str [] } _ empty_plan.choose_spec.choose_spec.1 _ _ empty_plan.choose_spec.choose_spec.2.1
  (by decide +kernel) (.int 1) (by decide) (by simp)

end Ex

end Verif
