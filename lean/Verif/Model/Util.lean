import Verif.Model.Address
import Verif.Model.Stdio
/-!
# Processes and ports

/repo/teleprox/util.py. The programs `ps` and `netstat` are modelled by their output, the operating system's processes by a table.
-/
namespace Verif

/-! ## Python's text functions -/

/-- `str.isspace` of one character; `\s` of the module `re` is the same. Used at /repo/teleprox/util.py:51, 171, 185. -/
def isPySpace (c : Char) : Bool :=
  let n := c.toNat
  (9 ≤ n ∧ n ≤ 13) ∨ (28 ≤ n ∧ n ≤ 32) ∨ n = 0x85 ∨ n = 0xA0 ∨ n = 0x1680 ∨ (0x2000 ≤ n ∧ n ≤ 0x200A) ∨ n = 0x2028 ∨ n = 0x2029 ∨ n = 0x202F ∨ n = 0x205F ∨ n = 0x3000

/-- `s.lstrip()`. /repo/teleprox/util.py:51. -/
def pyLstrip (s : List Char) : List Char := s.dropWhile isPySpace

/-- `s.strip()`. /repo/teleprox/util.py:171, 185. -/
def pyStrip (s : List Char) : List Char := ((pyLstrip s).reverse.dropWhile isPySpace).reverse

/-- `s.split('\n')`; `cur` is the text since the last newline. /repo/teleprox/util.py:48, 168, 182. -/
def splitNl : List Char → List Char → List (List Char)
  | [], cur => [cur]
  | c :: r, cur => if c = '\n' then cur :: splitNl r [] else splitNl r (cur ++ [c])

/-- `re.split(r'\s+', s)`; `cur` is the current word, `ws` tells whether we are in white space. /repo/teleprox/util.py:171, 185. -/
def splitWs : List Char → List Char → Bool → List (List Char)
  | [], cur, _ => [cur]
  | c :: r, _, true => if isPySpace c then splitWs r [] true else splitWs r [c] false
  | c :: r, cur, false => if isPySpace c then cur :: splitWs r [] true else splitWs r (cur ++ [c]) false

/-- `s.partition(' ')` without the separator. /repo/teleprox/util.py:51. -/
def partitionSp (s : List Char) : List Char × List Char := (s.takeWhile (· ≠ ' '), (s.dropWhile (· ≠ ' ')).drop 1)

/-- `search in s`. /repo/teleprox/util.py:52. -/
def isIn (search : List Char) : List Char → Bool
  | [] => search.isPrefixOf []
  | c :: r => search.isPrefixOf (c :: r) || isIn search r

/-- Digits, with single underscores between them allowed; the digits. Part of /repo/teleprox/util.py:53, 178-179, 192-193. -/
def intDigits : List Char → Option (List Char)
  | [] => none
  | [c] => if isUniDigit c then some [c] else none
  | c :: '_' :: r => if isUniDigit c then (intDigits r).map (c :: ·) else none
  | c :: r => if isUniDigit c then (intDigits r).map (c :: ·) else none

/-- `int(s)` for a text. /repo/teleprox/util.py:53, 178-179, 192-193. -/
def pyInt (s : List Char) : Except Exc Int :=
  let num (r : List Char) : Except Exc Int :=
    match intDigits r with
    | none => .error .valueError
    | some d => (intOfDigits d).map fun (n : Nat) => (n : Int)
  match pyStrip s with
  | '-' :: r => (num r).map fun i => -i
  | '+' :: r => num r
  | r => num r

/-! ## Processes -/

/-- The loop of `find_procs`; /repo/teleprox/util.py:49-54. -/
def findLines (search : List Char) : List (List Char) → Except Exc (List (Int × List Char))
  | [] => .ok []
  | line :: r =>
    let (pid, cmd) := partitionSp (pyLstrip line)
    if isIn search cmd then
      match pyInt pid with
      | .error e => .error e
      | .ok p =>
        match findLines search r with
        | .error e => .error e
        | .ok found => .ok ((p, line) :: found)
    else findLines search r

/-- `find_procs(search)` on Linux for the output of `ps -e -o pid,command`; /repo/teleprox/util.py:41-54. -/
def findProcs (ps : Bytes) (search : List Char) : Except Exc (List (Int × List Char)) :=
  match pyDecode ps with
  | .error e => .error e
  | .ok t => findLines search (splitNl t [])

/-- `for pid, line in procs: kill_pid(pid)`: those killed, and the exception that ends the loop. /repo/teleprox/util.py:76-77. -/
def killAll (kill : Int → Except Exc Unit) : List (Int × List Char) → List Int × Option Exc
  | [] => ([], none)
  | (pid, _) :: r =>
    match kill pid with
    | .error e => ([], some e)
    | .ok () => let (k, e) := killAll kill r; (pid :: k, e)

/-- `kill_procs(search)`; /repo/teleprox/util.py:64-78. `ps₁` and `ps₂` are what `ps` prints before and after the pause. The parameter `_search` is not used. The result: the processes
killed and what is returned or raised. -/
def killProcs (namePrefix : List Char) (ps₁ ps₂ : Bytes) (kill : Int → Except Exc Unit) (_search : List Char) : List Int × Except Exc (List (Int × List Char)) :=
  match findProcs ps₁ namePrefix with
  | .error e => ([], .error e)
  | .ok [] => ([], .ok [])
  | .ok _ =>
    match findProcs ps₂ namePrefix with
    | .error e => ([], .error e)
    | .ok [] => ([], .ok [])
    | .ok procs =>
      match killAll kill procs with
      | (k, some e) => (k, .error e)
      | (k, none) => (k, .ok procs)

/-- What the system knows of a process. `zombie`: it has ended, nobody has waited for it. `foreign`: it runs, but we may not signal it.
Used by `os.kill`, /repo/teleprox/util.py:18. -/
inductive OsState where
  | running | zombie | gone | foreign
  deriving DecidableEq, Repr

/-- The processes of a system. Used by `os.kill`, /repo/teleprox/util.py:18. -/
abbrev OsTable := Int → OsState

/-- The process that runs the code, the processes there are, and the process group of each. Used by `os.kill`, /repo/teleprox/util.py:18. -/
structure OsGroups where
  self : Int
  pids : List Int
  group : Int → Int

/-- The processes that `os.kill(pid, _)` signals for a pid below 1: the own group for 0, all but init and oneself for -1 (as on Linux), and the group -pid for others.
/repo/teleprox/util.py:18. -/
def OsGroups.affects (G : OsGroups) (pid q : Int) : Bool :=
  q ∈ G.pids ∧ (if pid = 0 then G.group q = G.group G.self else if pid = -1 then q ≠ 1 ∧ q ≠ G.self else G.group q = -pid)

/-- The processes after SIGKILL to `hit`: what is killed stays as a zombie until its parent waits. /repo/teleprox/util.py:18. -/
def OsTable.signal (t : OsTable) (hit : Int → Bool) : OsTable := fun q => if hit q ∧ t q = .running then .zombie else t q

/-- `kill_pid(pid)`: `os.kill(pid, SIGKILL)`; /repo/teleprox/util.py:10-18. Not on Windows. `none`: this was the end of the process itself. -/
def killPid (G : OsGroups) (t : OsTable) (pid : Int) : OsTable × Option (Except Exc Unit) :=
  if pid < -2147483648 ∨ 2147483647 < pid then (t, some (.error (.other "OverflowError")))
  else
    let hit := fun q => if 0 < pid then decide (q = pid) else G.affects pid q
    let there := if 0 < pid then [pid] else G.pids.filter (G.affects pid)
    if there.any (fun q => t q = .running ∨ t q = .zombie) then (t.signal hit, if hit G.self then none else some (.ok ()))
    else if there.any (fun q => t q = .foreign) then (t, some (.error (.other "PermissionError")))
    else (t, some (.error (.other "ProcessLookupError")))

/-- `except (OSError, ProcessLookupError)`, for what `os.kill` raises; /repo/teleprox/util.py:31. -/
def isOsError (e : Exc) : Bool := e = .other "PermissionError" ∨ e = .other "ProcessLookupError"

/-- `assert_pids_dead`; /repo/teleprox/util.py:21-34. `none`: the process itself has ended. -/
def assertPidsDead (G : OsGroups) (t : OsTable) : List Int → List Int → OsTable × Option (Except Exc Unit)
  | [], killed => (t, some (if killed = [] then .ok () else .error .assertionError))
  | pid :: r, killed =>
    match killPid G t pid with
    | (t, none) => (t, none)
    | (t, some (.ok ())) => assertPidsDead G t r (killed ++ [pid])
    | (t, some (.error e)) => if isOsError e then assertPidsDead G t r killed else (t, some (.error e))

/-- The loop of `ProcessCleaner.__exit__`: the table and the names of failures; /repo/teleprox/util.py:107-112. -/
def cleanLoop (G : OsGroups) (t : OsTable) : List (String × Int) → List String → OsTable × Option (Except Exc (List String))
  | [], failures => (t, some (.ok failures))
  | (name, pid) :: r, failures =>
    match assertPidsDead G t [pid] [] with
    | (t, none) => (t, none)
    | (t, some (.ok ())) => cleanLoop G t r failures
    | (t, some (.error e)) => if e = .assertionError then cleanLoop G t r (failures ++ [name]) else (t, some (.error e))

/-- How a `with ProcessCleaner()` block ends: the exception of the block (if any) goes on, the AssertionError with these names, another exception, or the process has ended.
/repo/teleprox/util.py:106-117. -/
inductive CleanEnd where
  | passes
  | failed (names : List String)
  | raised (e : Exc)
  | died
  deriving DecidableEq, Repr

/-- `ProcessCleaner.__exit__`; /repo/teleprox/util.py:106-117. `exc`: the block raised. -/
def cleanerExit (G : OsGroups) (t : OsTable) (procs : List (String × Int)) (exc : Bool) : OsTable × CleanEnd :=
  match cleanLoop G t procs [] with
  | (t, none) => (t, .died)
  | (t, some (.error e)) => (t, .raised e)
  | (t, some (.ok failures)) => if failures ≠ [] ∧ exc = false then (t, .failed failures) else (t, .passes)

/-- A value given or found as a pid. /repo/teleprox/util.py:92-100. -/
inductive PidVal where
  | none
  | int (i : Int)
  | bool (b : Bool)
  | other
  deriving DecidableEq, Repr

/-- The first argument of `add`: a name, an object with a name and a pid, or an object that has no such attribute. The name of a process is text. /repo/teleprox/util.py:92-99. -/
inductive ProcArg where
  | name (s : String)
  | proc (name : String) (pid : PidVal)
  | other
  deriving DecidableEq, Repr

/-- `assert isinstance(pid, int)` and what is stored: a bool is an int. /repo/teleprox/util.py:100-101. -/
def PidVal.toInt : PidVal → Except Exc Int
  | .int i => .ok i
  | .bool b => .ok (if b then 1 else 0)
  | .none | .other => .error .assertionError

/-- `ProcessCleaner.add`: the new list, or the exception; /repo/teleprox/util.py:92-101. -/
def cleanerAdd (procs : List (String × Int)) (a : ProcArg) (pid : PidVal) : Except Exc (List (String × Int)) :=
  match a with
  | .name s =>
    if pid = .none then .error .assertionError
    else match pid.toInt with
      | .ok i => .ok (procs ++ [(s, i)])
      | .error e => .error e
  | .proc s pid =>
    match pid.toInt with
    | .ok i => .ok (procs ++ [(s, i)])
    | .error e => .error e
  | .other => .error .attributeError

/-- A `with ProcessCleaner() as c:` block that calls `c.add` for each of `adds`, in turn, and raises at its end if `exc`; an `add` that raises ends it. `t`: the processes at its end.
/repo/teleprox/util.py:89-117. -/
def cleanerBlock (G : OsGroups) (t : OsTable) (exc : Bool) : List (ProcArg × PidVal) → List (String × Int) → OsTable × CleanEnd × Option Exc
  | [], procs => match cleanerExit G t procs exc with | (t, r) => (t, r, none)
  | (a, pid) :: adds, procs =>
    match cleanerAdd procs a pid with
    | .ok procs => cleanerBlock G t exc adds procs
    | .error e => match cleanerExit G t procs true with | (t, r) => (t, r, some e)

/-! ## Ports -/

/-- A `Port`; /repo/teleprox/util.py:151-157. -/
structure PortInfo where
  proto : List Char
  addr : List Char
  port : Int
  state : List Char
  pid : Int
  deriving DecidableEq, Repr

/-- `local_addr, local_port = s.rsplit(':', 1)`: ValueError without a colon. /repo/teleprox/util.py:176, 190. -/
def rsplitColon (s : List Char) : Except Exc (List Char × List Char) :=
  if ':' ∈ s then .ok (((s.reverse.dropWhile (· ≠ ':')).drop 1).reverse, (s.reverse.takeWhile (· ≠ ':')).reverse)
  else .error .valueError

/-- Text in lower case, for the two words that occur. /repo/teleprox/util.py:175. -/
def lowerProto (s : List Char) : List Char := if s = "TCP".toList then "tcp".toList else "udp".toList

/-- One line of `netstat -ano` on Windows; `none` is `continue`; /repo/teleprox/util.py:171-179. -/
def winLine (line : List Char) : Except Exc (Option PortInfo) :=
  let parts := splitWs (pyStrip line) [] false
  match parts with
  | proto :: loc :: _ :: state :: pid :: _ =>
    if proto = "TCP".toList ∨ proto = "UDP".toList then
      match rsplitColon loc with
      | .error e => .error e
      | .ok (a, p) =>
        match pyInt pid with
        | .error e => .error e
        | .ok pid =>
          match pyInt p with
          | .error e => .error e
          | .ok p => .ok (some ⟨lowerProto proto, a, p, if state = "LISTENING".toList then "LISTEN".toList else state, pid⟩)
    else .ok none
  | _ => .ok none

/-- One line of `netstat -tpln` on Linux; /repo/teleprox/util.py:185-193. Text has no method `lsplit`. -/
def linuxLine (line : List Char) : Except Exc (Option PortInfo) :=
  let parts := splitWs (pyStrip line) [] false
  match parts with
  | proto :: _ :: _ :: loc :: _ :: _ :: _ :: _ =>
    if proto = "tcp".toList ∨ proto = "udp".toList then
      match rsplitColon loc with
      | .error e => .error e
      | .ok _ => .error .attributeError
    else .ok none
  | _ => .ok none

/-- The loop over the lines. /repo/teleprox/util.py:170-179, 184-193. -/
def portLines (f : List Char → Except Exc (Option PortInfo)) : List (List Char) → Except Exc (List PortInfo)
  | [] => .ok []
  | l :: r =>
    match f l with
    | .error e => .error e
    | .ok p =>
      match portLines f r with
      | .error e => .error e
      | .ok ps => .ok (p.toList ++ ps)

/-- `netstat()` for the output of the program; /repo/teleprox/util.py:160-196. -/
def netstat (windows : Bool) (out : Bytes) : Except Exc (List PortInfo) :=
  match pyDecode out with
  | .error e => .error e
  | .ok t => portLines (if windows then winLine else linuxLine) (splitNl t [])

/-- `check_tcp_port` for a local host on Windows; /repo/teleprox/util.py:131-137. -/
def checkLocalPort (out : Bytes) (port : Int) : Except Exc String :=
  match netstat true out with
  | .error e => .error e
  | .ok ps => if ps.any fun p => p.proto = "tcp".toList ∧ p.addr = "127.0.0.1".toList ∧ p.port = port then .ok "open" else .ok "closed"

end Verif
