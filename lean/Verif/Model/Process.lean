import Verif.Model.Address
import Verif.Model.Stdio
/-!
# Starting, waiting for and stopping processes

/repo/teleprox/process.py and /repo/teleprox/bootstrap.py, on a posix system (`shell`: see `Verif/Model/Shell.lean`). Texts are lists of characters.
-/
namespace Verif

/-! ## start_process: from arguments to a command line -/

/-- An argument of `start_process`. `other` is any object that is not equal to a bool and is true. /repo/teleprox/process.py:29-32. -/
inductive PArg where
  | none
  | bool (b : Bool)
  | int (i : Int)
  | str (s : List Char)
  | bytes (b : Bytes)
  | other
  deriving DecidableEq, Repr

/-- `p in (True, False)`: ints 0 and 1 are equal to bools. Used at /repo/teleprox/process.py:114-115, 126. -/
def PArg.isBoolish : PArg → Bool
  | .bool _ => true
  | .int i => i == 0 || i == 1
  | _ => false

/-- `bool(p)`. Used at /repo/teleprox/process.py:119. -/
def PArg.truth : PArg → Bool
  | .none => false
  | .bool b => b
  | .int i => i != 0
  | .str s => !s.isEmpty
  | .bytes b => !b.isEmpty
  | .other => true

/-- `isinstance(p, (str, bytes))`. Used at /repo/teleprox/process.py:116, 118. -/
def PArg.isText : PArg → Bool
  | .str _ | .bytes _ => true
  | _ => false

/-- `p is None or isinstance(p, str)`. /repo/teleprox/process.py:117. -/
def PArg.isName : PArg → Bool
  | .none | .str _ => true
  | _ => false

/-- Arguments; /repo/teleprox/process.py:29-32 (`executable`, `conda_env`: `none` is None). -/
structure StartArgs where
  name : PArg := .none
  address : PArg := .str "tcp://127.0.0.1:*".toList
  qt : PArg := .bool false
  logAddr : PArg := .none
  logLevel : PArg := .none
  logStdio : PArg := .none
  executable : Option (List Char) := none
  condaEnv : Option (List Char) := none
  daemon : PArg := .bool false
  stdin : PArg := .none
  stdout : PArg := .none
  stderr : PArg := .none
  deriving DecidableEq, Repr

/-- What `start_process` uses of its process: `get_process_name()`, PROCESS_NAME_PREFIX, `get_logger_address()`, `logger.getEffectiveLevel()`,
`getattr(logging, text.upper())` (levels only), the address of the bootstrap socket, `sys.executable`, `repr` of bytes.
Used at /repo/teleprox/process.py:120, 123, 125, 134-135, 143, 167-171, 198, 215. -/
structure ProcEnv where
  ownName : List Char
  namePrefix : List Char
  logAddress : Option Bytes
  level : Int
  levelOf : List Char → Option Int
  bootstrap : Bytes
  python : List Char
  reprBytes : Bytes → List Char

/-- `str(i)`. `{log_level}` in the text of /repo/teleprox/process.py:156. -/
def intText (i : Int) : List Char := if i < 0 then '-' :: Nat.toDigits 10 i.natAbs else Nat.toDigits 10 i.natAbs

/-- The log address used: given, or the one of this process; process.py:119-120. -/
def logAddrOf (E : ProcEnv) (A : StartArgs) : PArg :=
  if A.logAddr = .none ∧ A.daemon.truth = false then
    match E.logAddress with
    | some a => .bytes a
    | none => .none
  else A.logAddr

/-- The text of the log level; process.py:121-125, 156. A bool is an int for Python, but is written 'True' or 'False'. -/
def logLevelText (E : ProcEnv) (A : StartArgs) : Except Exc (List Char) :=
  match A.logLevel with
  | .none => .ok (intText E.level)
  | .int i => .ok (intText i)
  | .bool b => .ok (if b then "True".toList else "False".toList)
  | .str s =>
    match E.levelOf s with
    | some i => .ok (intText i)
    | none => .error .attributeError
  | _ => .error .assertionError

/-- `log_stdio` after its default; process.py:126-132. -/
def logStdioOf (A : StartArgs) (logAddr : PArg) : PArg :=
  if A.logStdio = .none ∧ A.stdout = .none ∧ A.stderr = .none ∧ A.daemon = .bool false then .bool (decide (logAddr ≠ .none)) else A.logStdio

/-- The name of the child; process.py:133-135. -/
def childName (E : ProcEnv) (A : StartArgs) : List Char :=
  E.namePrefix ++ (match A.name with | .str s => s | _ => E.ownName ++ "_child".toList)

/-- What `Popen` is called with, and what is done with the output. /repo/teleprox/process.py:175-212. -/
structure Launch where
  cmd : List (List Char)
  args : List (List Char)
  stdin : PArg
  stdout : PArg
  stderr : PArg
  capture : Bool
  name : List Char
  deriving DecidableEq, Repr

/-- `subprocess.DEVNULL`. Used at /repo/teleprox/process.py:184, 193-195. -/
def devnull : PArg := .int (-3)
/-- `subprocess.PIPE`. Used at /repo/teleprox/process.py:202-203. -/
def pipe : PArg := .int (-1)

/-- The `--logaddr` and `--loglevel` arguments; process.py:153-157. A str has no `decode`. -/
def logArgs (logAddr : PArg) (level : List Char) : Except Exc (List (List Char)) :=
  match logAddr with
  | .none => .ok []
  | .bytes b =>
    match pyDecode b with
    | .error e => .error e
    | .ok a => .ok ["--logaddr=".toList ++ a, "--loglevel=".toList ++ level]
  | _ => .error .attributeError

/-- Text of the address in an f-string; process.py:159. -/
def addressText (E : ProcEnv) (a : PArg) : List Char :=
  match a with
  | .str s => s
  | .bytes b => E.reprBytes b
  | _ => []

/-- `bootstrap_args`; process.py:146-165. -/
def bootArgs (E : ProcEnv) (A : StartArgs) (name : List Char) (logArgs : List (List Char)) (boot : List Char) : List (List Char) :=
  [name] ++ (if A.qt = .bool true then ["--qt".toList] else []) ++ (if A.daemon = .bool true then ["--daemon".toList] else []) ++
    logArgs ++ ["--listen_addr=".toList ++ addressText E A.address, "--bootstrap_addr=".toList ++ boot] ++
    (if E.namePrefix = [] then [] else ["--child_name_prefix=".toList ++ E.namePrefix])

/-- `cmd`; process.py:167-178. -/
def bootCmd (E : ProcEnv) (A : StartArgs) (args : List (List Char)) : List (List Char) :=
  let exe := match A.executable with
    | some x => x
    | none => match A.condaEnv with | none => E.python | some _ => "python".toList
  (match A.condaEnv with
    | some c => ["conda".toList, "run".toList, "--no-capture-output".toList, "-n".toList, c]
    | none => []) ++ [exe, "-u".toList, "-m".toList, "teleprox.bootstrap".toList] ++ args

/-- `start_process` up to the call of `Popen`; /repo/teleprox/process.py:114-206. The bootstrap socket is assumed to be made. -/
def startPlan (E : ProcEnv) (A : StartArgs) : Except Exc Launch :=
  if A.daemon.isBoolish = false then .error .assertionError
  else if A.qt.isBoolish = false then .error .assertionError
  else if A.address.isText = false then .error .assertionError
  else if A.name.isName = false then .error .assertionError
  else if ¬ (A.logAddr = .none ∨ A.logAddr.isText = true) then .error .assertionError
  else
    let logAddr := logAddrOf E A
    match logLevelText E A with
    | .error e => .error e
    | .ok level =>
      if ¬ (A.logStdio = .none ∨ A.logStdio.isBoolish = true) then .error .assertionError
      else if A.logStdio = .bool true ∧ ¬ (A.stdout = .none ∧ A.stderr = .none) then .error .assertionError
      else
        let logStdio := logStdioOf A logAddr
        let name := childName E A
        match logArgs logAddr level with
        | .error e => .error e
        | .ok logArgs =>
          match pyDecode E.bootstrap with
          | .error e => .error e
          | .ok boot =>
            let args := bootArgs E A name logArgs boot
            let cmd := bootCmd E A args
            if A.daemon = .bool true then
              if logStdio = .bool true then .error .assertionError
              else if ¬ (A.stdin = .none ∧ A.stdout = .none ∧ A.stderr = .none) then .error .assertionError
              else .ok ⟨cmd, args, devnull, devnull, devnull, false, name⟩
            else if logStdio = .bool true then
              .ok ⟨cmd, args, if A.stdin.truth then A.stdin else devnull, pipe, pipe, true, name⟩
            else .ok ⟨cmd, args, if A.stdin.truth then A.stdin else devnull, A.stdout, A.stderr, false, name⟩

/-! ## bootstrap: from the command line to a server -/

/-- What argparse stores for an option with `nargs='?'`: its default, its const (given without value), or a text.
/repo/teleprox/bootstrap.py:9-17. -/
inductive OptVal where
  | default
  | const
  | given (s : List Char)
  deriving DecidableEq, Repr

/-- The options; /repo/teleprox/bootstrap.py:9-17. -/
inductive BootOpt where
  | listenAddr | daemon | qt | verbose | logaddr | loglevel | bootstrapAddr | childNamePrefix
  deriving DecidableEq, Repr

/-- Their texts. /repo/teleprox/bootstrap.py:10-17. -/
def optTable : List (List Char × BootOpt) :=
  [("--listen_addr".toList, .listenAddr), ("--daemon".toList, .daemon), ("--qt".toList, .qt), ("--verbose".toList, .verbose), ("--logaddr".toList, .logaddr),
   ("--loglevel".toList, .loglevel), ("--bootstrap_addr".toList, .bootstrapAddr), ("--child_name_prefix".toList, .childNamePrefix)]

/-- The namespace argparse returns. /repo/teleprox/bootstrap.py:19-20. -/
structure Conf where
  procname : Option (List Char) := none
  opts : BootOpt → OptVal := fun _ => .default

/-- Set an option. Part of /repo/teleprox/bootstrap.py:19. -/
def Conf.set (c : Conf) (o : BootOpt) (v : OptVal) : Conf := { c with opts := fun x => if x = o then v else c.opts x }

/-- The part of an argument before the first `=`, and the part behind it if there is one. Part of /repo/teleprox/bootstrap.py:19. -/
def splitEq (a : List Char) : List Char × Option (List Char) :=
  (a.takeWhile (· ≠ '='), match a.dropWhile (· ≠ '=') with | [] => none | _ :: v => some v)

/-- All option strings in the order in which they are added; `none` is the option for help that argparse adds itself.
Part of /repo/teleprox/bootstrap.py:8-17. -/
def optStrings : List (List Char × Option BootOpt) :=
  ("-h".toList, none) :: ("--help".toList, none) :: optTable.map fun p => (p.1, some p.2)

/-- What argparse makes of a word: a value, an option (with the value behind `=`), the word `--`, or something that ends the
script: help, an unknown option or an ambiguous abbreviation (the exit status, 0 or 2, and what is printed are left out).
`_parse_optional` of the argparse of Python 3.11, used at /repo/teleprox/bootstrap.py:19. -/
inductive ArgTok where
  | value (a : List Char)
  | opt (o : BootOpt) (v : Option (List Char))
  | dashes
  | stop
  deriving DecidableEq, Repr

/-- The option found: help ends the script, with a value behind it too. Part of /repo/teleprox/bootstrap.py:19. -/
def optTok (o : Option BootOpt) (v : Option (List Char)) : ArgTok :=
  match o with
  | some o => .opt o v
  | none => .stop

/-- The regular expression `^-\d+$|^-\d*\.\d+$` for negative numbers, whose `$` also matches before a newline at the end.
Part of /repo/teleprox/bootstrap.py:19. -/
def negNumber : List Char → Bool
  | '-' :: r =>
    let r := if r.getLast? = some '\n' then r.dropLast else r
    (!r.isEmpty && r.all isUniDigit) ||
      match r.dropWhile isUniDigit with
      | '.' :: f => !f.isEmpty && f.all isUniDigit
      | _ => false
  | _ => false

/-- `_get_option_tuples`: the options a word that begins with a dash can abbreviate. A single dash and a letter can be
followed by a value. Part of /repo/teleprox/bootstrap.py:19. -/
def optMatches (a : List Char) : List (Option BootOpt × Option (List Char)) :=
  if a.tail.head? = some '-' then
    (optStrings.filter fun p => (splitEq a).1.isPrefixOf p.1).map fun p => (p.2, (splitEq a).2)
  else
    optStrings.filterMap fun p =>
      if p.1 = a.take 2 then some (p.2, some (a.drop 2)) else if a.isPrefixOf p.1 then some (p.2, none) else none

/-- The lookup of an option by its whole text, alone or before `=`; a single dash is no option.
Part of /repo/teleprox/bootstrap.py:19. -/
def optExact (a : List Char) : Option ArgTok :=
  match optStrings.lookup a with
  | some o => some (optTok o none)
  | none =>
    if a.length = 1 then some (.value a)
    else
      match (splitEq a).2 with
      | some v => (optStrings.lookup (splitEq a).1).map (optTok · (some v))
      | none => none

/-- `_parse_optional`. Part of /repo/teleprox/bootstrap.py:19. -/
def argTok (a : List Char) : ArgTok :=
  if a.head? ≠ some '-' then .value a
  else
    match optExact a with
    | some t => t
    | none =>
      match optMatches a with
      | [] => if negNumber a || a.contains ' ' then .value a else .stop
      | [(o, v)] => optTok o v
      | _ => .stop

/-- All words: behind the first `--` everything is a value. Part of /repo/teleprox/bootstrap.py:19. -/
def argToks : List (List Char) → List ArgTok
  | [] => []
  | a :: r => if a = ['-', '-'] then .dashes :: r.map .value else argTok a :: argToks r

/-- Options and the name in turn; `left` says whether the name is still to come (`_parse_known_args`). An option without `=` takes the next
word if that is a value; the first other value is the name, with `--` before or behind it; a further one ends the
script. `none` is the end of the script (SystemExit). /repo/teleprox/bootstrap.py:19. -/
def takeToks (c : Conf) (left : Bool) : List ArgTok → Option Conf
  | [] => some c
  | .stop :: _ => none
  | .opt o (some v) :: r => takeToks (c.set o (.given v)) left r
  | .opt o none :: .value v :: r => takeToks (c.set o (.given v)) left r
  | .opt o none :: r => takeToks (c.set o .const) left r
  | .value a :: r =>
    if left then
      match r with
      | [.dashes] => some { c with procname := some a }
      | _ => takeToks { c with procname := some a } false r
    else none
  | .dashes :: r =>
    if left then
      match r with
      | [] => some c
      | [.value a] => some { c with procname := some a }
      | _ => none
    else none

/-- `parser.parse_args()`. /repo/teleprox/bootstrap.py:19. -/
def parseArgs (ws : List (List Char)) : Option Conf := takeToks {} true (argToks ws)

/-- The digits of `str.isdigit` that are not decimal, as intervals of code points: superscripts, circled digits and the like.
Used at /repo/teleprox/bootstrap.py:25. -/
def otherDigits : List (Nat × Nat) :=
  [(178, 179), (185, 185), (4969, 4977), (6618, 6618), (8304, 8304), (8308, 8313), (8320, 8329), (9312, 9320), (9332, 9340),
   (9352, 9360), (9450, 9450), (9461, 9469), (9471, 9471), (10102, 10110), (10112, 10120), (10122, 10130), (68160, 68163),
   (69216, 69224), (69714, 69722), (127232, 127242)]

/-- A digit that is not decimal. Used at /repo/teleprox/bootstrap.py:25. -/
def isOtherDigit (c : Char) : Bool := otherDigits.any fun r => r.1 ≤ c.toNat && c.toNat ≤ r.2

/-- `s.isdigit()`. /repo/teleprox/bootstrap.py:25. -/
def isDigits (s : List Char) : Bool := !s.isEmpty && s.all fun c => isUniDigit c || isOtherDigit c

/-- The level; /repo/teleprox/bootstrap.py:23-30. Digits that are not decimal, or too many of them, `int` refuses with a
ValueError, which is caught; the text that is left as level is refused by `setLevel` (line 60). -/
def bootLevel (levelOf : List Char → Option Int) (v : OptVal) : Except Exc Int :=
  match v with
  | .const => .error .attributeError
  | .default => .ok 20
  | .given s =>
    if isDigits s then
      if s.all isUniDigit then
        match intOfDigits s with
        | .ok n => .ok n
        | .error _ => .error .valueError
      else .error .valueError
    else
      match levelOf s with
      | some i => .ok i
      | none => .error .attributeError

/-- How the child is set up. /repo/teleprox/bootstrap.py:22-85. -/
structure ChildConf where
  procName : Option (List Char)
  listen : Option (List Char)
  qt : Bool
  verbose : Bool
  forks : Bool
  logAddr : Option Bytes
  level : Int
  bootstrap : Option (List Char)
  namePrefix : Option (List Char)
  deriving DecidableEq, Repr

/-- An option whose const is None. Options of /repo/teleprox/bootstrap.py:9-10, 14, 16-17. -/
def OptVal.text (d : Option (List Char)) : OptVal → Option (List Char)
  | .default => d
  | .const => none
  | .given s => some s

/-- /repo/teleprox/bootstrap.py:22-80. The address is encoded (`conf['logaddr'].encode()`). -/
def childSetup (levelOf : List Char → Option Int) (c : Conf) : Except Exc ChildConf :=
  match bootLevel levelOf (c.opts .loglevel) with
  | .error e => .error e
  | .ok level =>
    .ok { procName := c.procname
          listen := (c.opts .listenAddr).text (some "tcp://127.0.0.1:*".toList)
          qt := match c.opts .qt with | .default => false | .const => true | .given s => !s.isEmpty
          verbose := match c.opts .verbose with | .default => false | .const => true | .given s => !s.isEmpty
          forks := c.opts .daemon = .const
          logAddr := ((c.opts .logaddr).text none).map fun a => a.flatMap String.utf8EncodeChar
          level
          bootstrap := (c.opts .bootstrapAddr).text none
          namePrefix := (c.opts .childNamePrefix).text (some []) }

/-- The keys of `conf` when the server is made; /repo/teleprox/bootstrap.py:9-22. -/
def confKeys : List String :=
  ["procname", "listen_addr", "daemon", "qt", "verbose", "logaddr", "loglevel", "bootstrap_addr", "child_name_prefix", "class_name"]

/-- `text.format(**conf)`: KeyError if a name in braces is missing. /repo/teleprox/bootstrap.py:85, 94. -/
def formatKeys (used : List String) : Except Exc Unit := if used.all (confKeys.contains ·) then .ok () else .error .keyError

/-- The status sent to the parent. /repo/teleprox/bootstrap.py:92, 95. -/
inductive BootStatus where
  | address (a : Bytes) (pid : Nat)
  | error (text : List String) (pid : Nat)
  deriving DecidableEq, Repr

/-- The outcome of the child up to its report: it ends with an exit status or exception, or it has a status to report (and runs its server if that has an
address). /repo/teleprox/bootstrap.py:19-119. -/
inductive BootOut where
  | died (e : Exc)
  | ready (s : BootStatus)
  deriving DecidableEq, Repr

/-- What happens in the child: whether Qt can be imported and an application made, whether zmq accepts a log address, and the address of the new server or the exception of its
constructor; the traceback text. Used at /repo/teleprox/bootstrap.py:70-95. -/
structure BootEnv where
  qtOk : Bool
  logOk : Bytes → Bool
  server : Option (List Char) → Except Exc Bytes
  traceback : Exc → List String
  pid : Nat

/-- The script up to its report; /repo/teleprox/bootstrap.py:19-95. An address zmq cannot connect to ends it (set_logger_address, log/remote.py:185-195). -/
def bootChild (levelOf : List Char → Option Int) (B : BootEnv) (args : List (List Char)) : BootOut :=
  match parseArgs args with
  | none => .died (.other "SystemExit")
  | some c =>
    match childSetup levelOf c with
    | .error e => .died e
    | .ok k =>
      if k.qt ∧ B.qtOk = false then .died .importError
      else if ¬ (k.logAddr.all B.logOk) then .died .zmqError
      else
        match formatKeys ["procname", "class_name", "listen_addr", "logaddr", "loglevel"] with
        | .error e => .died e
        | .ok () =>
          match B.server k.listen with
          | .ok a => .ready (.address a B.pid)
          | .error e =>
            match formatKeys ["class_name", "args"] with
            | .error e' => .died e'
            | .ok () => .ready (.error (B.traceback e) B.pid)

/-! ## The report -/

/-- What the parent does after the report; /repo/teleprox/process.py:219-241. -/
inductive ParentAct where
  | ok
  | connect (a : Bytes)
  | kill
  deriving DecidableEq, Repr

/-- The value of `start_process`. /repo/teleprox/process.py:219-241. -/
inductive SpawnResult where
  | child (a : Bytes)
  | daemon (a : Bytes) (pid : Nat)
  deriving DecidableEq, Repr

/-- process.py:220-241. `none`: nothing arrived within ten seconds. `poll` is the result of `proc.poll()`. RPCClient is assumed to connect. An exception comes with the text of
the child. -/
def parentFinish (daemon : Bool) (poll : Option Int) : Option BootStatus → List ParentAct × Except (Exc × List String) SpawnResult
  | none => ([], .error (.timeoutError, []))
  | some (.address a pid) => ([.ok, .connect a], .ok (if daemon then .daemon a pid else .child a))
  | some (.error t _) =>
    -- a posix daemon has `proc = None`
    ([.ok] ++ (if daemon = false ∧ poll ≠ none then [.kill] else []), .error (.runtimeError, t))

/-- The parent waits for the report. /repo/teleprox/process.py:219-226. -/
inductive ParentPc where
  | waiting
  | got (s : BootStatus)
  | timedOut
  deriving DecidableEq, Repr

/-- The child reports. /repo/teleprox/bootstrap.py:99-119. -/
inductive ReportPc where
  /-- still starting -/
  | starting
  /-- in its loop since this time; bootstrap.py:104-113 -/
  | reporting (s : BootStatus) (since : Nat)
  /-- behind the loop: runs its server, if it has one -/
  | done (s : BootStatus)
  /-- the process has ended -/
  | dead
  deriving DecidableEq, Repr

/-- Parent and child while the child reports: the time in ms since the parent began to wait, messages to the parent, whether the reply is on its way.
/repo/teleprox/process.py:137-143, 219-226 and /repo/teleprox/bootstrap.py:99-115. -/
structure ReportSt where
  now : Nat := 0
  parent : ParentPc := .waiting
  chan : List BootStatus := []
  reply : Bool := false
  child : ReportPc := .starting
  deriving DecidableEq, Repr

/-- Atomic steps. /repo/teleprox/process.py:219-226 and /repo/teleprox/bootstrap.py:99-119. -/
inductive ReportEv where
  | tick (d : Nat)
  /-- the child comes to its report or dies before -/
  | ready (o : BootOut)
  /-- one pass of its loop: it sends, then looks for a reply -/
  | pass
  /-- `recv_json` returns -/
  | recv
  /-- `recv_json` gives up: RCVTIMEO is 10000 ms -/
  | expire
  deriving DecidableEq, Repr

/-- One step; /repo/teleprox/process.py:219-226, /repo/teleprox/bootstrap.py:97-115. -/
def ReportSt.step (s : ReportSt) : ReportEv → ReportSt
  | .tick d => { s with now := s.now + d }
  | .ready o =>
    match s.child, o with
    | .starting, .ready st => { s with child := .reporting st s.now }
    | .starting, .died _ => { s with child := .dead }
    | _, _ => s
  | .pass =>
    match s.child with
    | .reporting st since =>
      if s.now < since + 10000 then
        let s := { s with chan := s.chan ++ [st] }
        if s.reply then { s with child := .done st } else s
      else { s with child := .done st }
    | _ => s
  | .recv =>
    match s.parent, s.chan with
    | .waiting, st :: r => { s with parent := .got st, chan := r, reply := true }
    | _, _ => s
  | .expire => if s.parent = .waiting ∧ s.chan = [] ∧ 10000 ≤ s.now then { s with parent := .timedOut } else s

/-- A history. Any interleaving of /repo/teleprox/process.py:219-226 and /repo/teleprox/bootstrap.py:99-119. -/
def ReportSt.run (s : ReportSt) (es : List ReportEv) : ReportSt := es.foldl ReportSt.step s

/-! ## ChildProcess -/

/-- A process: when it exits (ms), with which code. The process started at /repo/teleprox/process.py:206. -/
structure OsProc where
  exitAt : Option Nat
  code : Int
  deriving DecidableEq, Repr

/-- `proc.poll()` at time `now`. Used at /repo/teleprox/process.py:300, 311, 321, 334. -/
def OsProc.poll (p : OsProc) (now : Nat) : Option Int :=
  match p.exitAt with
  | some t => if t ≤ now then some p.code else none
  | none => none

/-- What `proc.communicate(timeout=…)` does: return after this many ms, raise AttributeError or ValueError after this many ms (a Python bug), or raise
TimeoutExpired. /repo/teleprox/process.py:287-296. -/
inductive Communicate where
  | returns (d : Nat)
  | bug (d : Nat)
  | expired (d : Nat)
  deriving DecidableEq, Repr

/-- When these can happen: it returns when the process has exited and its pipes are closed by everyone who writes to them (at `pipes`; the child hands its
standard streams down to processes it starts), and expires if that did not happen within the timeout. Python's standard library, not /repo.
/repo/teleprox/process.py:287-296. -/
def Communicate.fits (p : OsProc) (pipes : Option Nat) (start timeout : Nat) : Communicate → Prop
  | .returns d => (∃ t, p.exitAt = some t ∧ t ≤ start + d) ∧ (∃ t, pipes = some t ∧ t ≤ start + d) ∧ d ≤ timeout
  | .bug d => d ≤ timeout
  | .expired d => timeout ≤ d ∧ ¬ ((∃ t, p.exitAt = some t ∧ t ≤ start + timeout) ∧ (∃ t, pipes = some t ∧ t ≤ start + timeout))

/-- The polling loop of `wait`; /repo/teleprox/process.py:298-306. `ds` are the times from one poll to the next (at least the sleep, which doubles up to
100 ms; whatever the scheduler adds). The result is paired with the time. The list ends: `none`, the loop is still going. -/
def waitLoop (p : OsProc) (start timeout : Nat) (now sleep : Nat) : List Nat → Option (Nat × Except Exc Int)
  | [] =>
    match p.poll now with
    | some c => some (now, .ok c)
    | none => if timeout < now - start then some (now, .error .timeoutError) else none
  | d :: ds =>
    match p.poll now with
    | some c => some (now, .ok c)
    | none => if timeout < now - start then some (now, .error .timeoutError) else waitLoop p start timeout (now + sleep + d) (min (sleep * 2) 100) ds

/-- `ChildProcess.wait(timeout)`; /repo/teleprox/process.py:280-306. `ds`: what the scheduler adds to each sleep. -/
def childWait (p : OsProc) (start timeout : Nat) (c : Communicate) (ds : List Nat) : Option (Nat × Except Exc Int) :=
  match c with
  | .expired d => some (start + d, .error .timeoutError)
  | .returns d | .bug d => waitLoop p start timeout (start + d) 1 ds

/-- What `stop` and `kill` do. /repo/teleprox/process.py:308-328. -/
inductive ChildAct where
  | closeServer
  | kill
  | wait
  deriving DecidableEq, Repr

/-- `stop`; process.py:318-328. `closed` is the result of `close_server`, `waited` that of `wait`. The result `none` is None. -/
def childStop (poll : Option Int) (closed : Except Exc PArg) (waited : Except Exc Int) : List ChildAct × Except Exc (Option Int) :=
  match poll with
  | some _ => ([], .ok none)
  | none =>
    match closed with
    | .error e => ([.closeServer], .error e)
    | .ok v =>
      if v = .bool true then ([.closeServer, .wait], waited.map some)
      else ([.closeServer], .error .assertionError)

/-- `kill`; process.py:308-316. -/
def childKill (poll : Option Int) (waited : Except Exc Int) : List ChildAct × Except Exc (Option Int) :=
  match poll with
  | some _ => ([], .ok none)
  | none => ([.kill, .wait], waited.map some)

/-! ## Waiting and the output of the child -/

/-- A pipe with two readers: the bytes in the pipe, and those the poller has taken.
Standard output or error of the process of /repo/teleprox/process.py:206, read at /repo/teleprox/process.py:289 and /repo/teleprox/log/stdio.py:21. -/
structure SharedPipe where
  kernel : Bytes := []
  poller : List PipeEv := []
  deriving DecidableEq, Repr

/-- Steps of the child and of the two readers: the poller thread (log/stdio.py) and `communicate` called by `wait` (process.py:289), which reads from the same pipe. -/
inductive SharedEv where
  | wrote (b : Bytes)
  | pollerReads
  | communicateReads
  | closed
  | go
  deriving DecidableEq, Repr

/-- One step. What `communicate` reads is kept in the Popen object and never logged.
/repo/teleprox/process.py:289 and /repo/teleprox/log/stdio.py:20-24. -/
def SharedPipe.step (s : SharedPipe) : SharedEv → SharedPipe
  | .wrote b => { s with kernel := s.kernel ++ b }
  | .pollerReads => { kernel := [], poller := s.poller ++ [.wrote s.kernel] }
  | .communicateReads => { s with kernel := [] }
  | .closed => { kernel := [], poller := s.poller ++ [.wrote s.kernel, .closed] }
  | .go => { s with poller := s.poller ++ [.go] }

/-- A history. Any interleaving of /repo/teleprox/process.py:289 and /repo/teleprox/log/stdio.py:20-24. -/
def SharedPipe.run (s : SharedPipe) (es : List SharedEv) : SharedPipe := es.foldl SharedPipe.step s

end Verif
