import Verif.Model.Process
import Verif.Spec.Stdio
/-!
# What starting a process means
-/
namespace Verif

/-- A level: a number or a name. -/
inductive LevelReq where
  | num (n : Int)
  | named (s : List Char)
  deriving DecidableEq, Repr

/-- A call of `start_process` with arguments of the documented types; addresses are texts. -/
structure StartReq where
  name : Option (List Char) := none
  address : List Char := "tcp://127.0.0.1:*".toList
  qt : Bool := false
  logAddr : Option (List Char) := none
  level : Option LevelReq := none
  logStdio : Option Bool := none
  executable : Option (List Char) := none
  condaEnv : Option (List Char) := none
  daemon : Bool := false
  stdin : PArg := .none
  stdout : PArg := .none
  stderr : PArg := .none
  deriving DecidableEq, Repr

/-- The arguments of the call. The log address is passed as bytes, as `get_logger_address` returns it. -/
def StartReq.args (r : StartReq) : StartArgs where
  name := match r.name with | some s => .str s | none => .none
  address := .str r.address
  qt := .bool r.qt
  logAddr := match r.logAddr with | some a => .bytes (utf8 a) | none => .none
  logLevel := match r.level with | some (.num n) => .int n | some (.named s) => .str s | none => .none
  logStdio := match r.logStdio with | some b => .bool b | none => .none
  executable := r.executable
  condaEnv := r.condaEnv
  daemon := .bool r.daemon
  stdin := r.stdin
  stdout := r.stdout
  stderr := r.stderr

/-- The name wanted: the one given, or the own name with `_child`; behind the prefix of the process. -/
def wantedName (E : ProcEnv) (r : StartReq) : List Char := E.namePrefix ++ (r.name.getD (E.ownName ++ "_child".toList))

/-- The log address wanted: the one given, or the one of this process unless a daemon is started. -/
def wantedLog (own : Option (List Char)) (r : StartReq) : Option (List Char) :=
  match r.logAddr with
  | some a => some a
  | none => if r.daemon then none else own

/-- The level wanted; `none`: no such level. -/
def wantedLevel (E : ProcEnv) (r : StartReq) : Option Int :=
  match r.level with
  | none => some E.level
  | some (.num n) => some n
  | some (.named s) => E.levelOf s

/-- The combinations that exclude each other: captured output or a daemon, and streams of one's own. -/
def StartReq.Compatible (r : StartReq) : Prop :=
  (r.logStdio = some true → r.stdout = .none ∧ r.stderr = .none ∧ r.daemon = false) ∧
  (r.daemon = true → r.stdin = .none ∧ r.stdout = .none ∧ r.stderr = .none)

/-- What the child should be. -/
def wantedChild (E : ProcEnv) (own : Option (List Char)) (boot : List Char) (r : StartReq) (level : Int) : ChildConf where
  procName := some (wantedName E r)
  listen := some r.address
  qt := r.qt
  verbose := false
  forks := r.daemon
  logAddr := (wantedLog own r).map utf8
  level := level
  bootstrap := some boot
  namePrefix := some E.namePrefix

/-- The child has sent its status. -/
def ReportSent (es : List ReportEv) : Prop :=
  ∃ x y st since, es = x ++ .pass :: y ∧ (ReportSt.run {} x).child = .reporting st since ∧ (ReportSt.run {} x).now < since + 10000

/-- The time a step takes. -/
def ReportEv.dur : ReportEv → Nat
  | .tick d => d
  | _ => 0

/-- The time that has passed in a history, in ms. -/
def elapsed (es : List ReportEv) : Nat := (es.map ReportEv.dur).sum

end Verif
