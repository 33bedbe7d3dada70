import Verif.Model.Process
/-!
# Killing processes by their pid

/repo/teleprox/process.py:244-343 and /repo/teleprox/util.py:10-38, 106-117, on a posix system, with the pids of the system: a pid names another process once its process has ended
and its parent has waited for it.
-/
namespace Verif

/-- A process in the table of the system. `inst` tells processes with the same pid apart. `code`: it has ended with this code, nobody has waited for it. `ours`: it is a child of this
process. `allowed`: we may signal it. Used by `os.kill`, `os.waitpid` (Python's `Popen`), /repo/teleprox/process.py:206, 300, 311, 314; /repo/teleprox/util.py:18. -/
structure PidEntry where
  inst : Nat
  code : Option Int := none
  ours : Bool := false
  allowed : Bool := true
  deriving DecidableEq, Repr

/-- A `Popen` object, and the process it was made for. /repo/teleprox/process.py:206, 269-278. -/
structure PopenObj where
  pid : Nat
  inst : Nat
  returncode : Option Int := none
  deriving DecidableEq, Repr

/-- The system, the `ChildProcess` objects (their `Popen`), the `DaemonProcess` objects (pid, and the process that reported it), and for each thread the child it is about to signal.
/repo/teleprox/process.py:238-278. -/
structure PidSt where
  table : Nat → Option PidEntry := fun _ => none
  next : Nat := 0
  children : List PopenObj := []
  daemons : List (Nat × Nat) := []
  pending : Nat → Option Nat := fun _ => none

/-- Which object sends a signal. /repo/teleprox/process.py:244, 267; /repo/teleprox/util.py:80. -/
inductive KillBy where
  | child | daemon | cleaner
  deriving DecidableEq, Repr

/-- What is seen: a SIGKILL sent to a process by an object made for a process; nothing there or not allowed; the result of a poll. /repo/teleprox/process.py:254-263, 308-316. -/
inductive PidOut where
  | signal (by_ : KillBy) (target wanted : Nat)
  | missed
  | code (c : Option Int)
  deriving DecidableEq, Repr

/-- Steps. /repo/teleprox/process.py:206, 254-263, 300, 308-316, 330-334; /repo/teleprox/util.py:21-34. -/
inductive PidEv where
  /-- a child is started; `Popen`, process.py:206 -/
  | spawn (pid : Nat)
  /-- a daemon is started and reports its pid; process.py:238-239 -/
  | daemon (pid : Nat)
  /-- any other process starts -/
  | other (pid : Nat) (allowed : Bool)
  /-- a process ends -/
  | exits (pid : Nat) (code : Int)
  /-- a parent other than this process waits for its child -/
  | reaped (pid : Nat)
  /-- `ChildProcess.poll()`; also each poll of `wait` -/
  | poll (h : Nat)
  /-- `ChildProcess.kill()` in a thread, up to the poll in `Popen.send_signal` -/
  | killCheck (t h : Nat)
  /-- `os.kill` in `Popen.send_signal` -/
  | killSend (t : Nat)
  /-- `DaemonProcess.kill()` -/
  | killDaemon (d : Nat)
  /-- `ProcessCleaner.__exit__` for a child that was added -/
  | clean (h : Nat)
  deriving DecidableEq, Repr

/-- A process is put into the table. Part of /repo/teleprox/process.py:206. -/
def PidSt.put (s : PidSt) (pid : Nat) (e : Option PidEntry) : PidSt := { s with table := fun p => if p = pid then e else s.table p }

/-- `Popen.poll()`: `os.waitpid(pid, WNOHANG)` unless the code is known; a pid that is no child counts as ended with 0. Python's standard library, used at
/repo/teleprox/process.py:300, 311, 321, 334. -/
def PidSt.poll (s : PidSt) (h : Nat) (p : PopenObj) : PidSt × Option Int :=
  match p.returncode with
  | some c => (s, some c)
  | none =>
    match s.table p.pid with
    | some { ours := true, code := some c, .. } => ({ s.put p.pid none with children := s.children.set h { p with returncode := some c } }, some c)
    | some { ours := true, code := none, .. } => (s, none)
    | _ => ({ s with children := s.children.set h { p with returncode := some 0 } }, some 0)

/-- `os.kill(pid, SIGKILL)`: an ended process takes the signal without effect. /repo/teleprox/util.py:18; also Python's `Popen.send_signal`. -/
def PidSt.osKill (s : PidSt) (who : KillBy) (pid wanted : Nat) : PidSt × List PidOut :=
  match s.table pid with
  | none => (s, [.missed])
  | some e =>
    if e.allowed = false then (s, [.missed])
    else (s.put pid (some { e with code := some (e.code.getD (-9)) }), [.signal who e.inst wanted])

/-- One step; /repo/teleprox/process.py:206, 238-239, 254-263, 300, 308-316, 330-334; /repo/teleprox/util.py:21-34. -/
def PidSt.step (s : PidSt) : PidEv → PidSt × List PidOut
  | .spawn pid =>
    match s.table pid with
    | some _ => (s, [])
    | none => ({ s.put pid (some { inst := s.next, ours := true }) with next := s.next + 1, children := s.children ++ [{ pid, inst := s.next }] }, [])
  | .daemon pid =>
    match s.table pid with
    | some _ => (s, [])
    | none => ({ s.put pid (some { inst := s.next }) with next := s.next + 1, daemons := s.daemons ++ [(pid, s.next)] }, [])
  | .other pid allowed =>
    match s.table pid with
    | some _ => (s, [])
    | none => ({ s.put pid (some { inst := s.next, allowed }) with next := s.next + 1 }, [])
  | .exits pid code =>
    match s.table pid with
    | some e => (s.put pid (some { e with code := some (e.code.getD code) }), [])
    | none => (s, [])
  | .reaped pid =>
    match s.table pid with
    | some { ours := false, code := some _, .. } => (s.put pid none, [])
    | _ => (s, [])
  | .poll h =>
    match s.children[h]? with
    | none => (s, [])
    | some p =>
      match s.poll h p with
      | (s, c) => (s, [.code c])
  | .killCheck t h =>
    match s.pending t, s.children[h]? with
    | some _, _ | _, none => (s, [])
    | none, some p =>
      match s.poll h p with
      | (s, some _) => (s, [])
      | (s, none) => ({ s with pending := fun x => if x = t then some h else s.pending x }, [])
  | .killSend t =>
    match s.pending t with
    | none => (s, [])
    | some h =>
      let s := { s with pending := fun x => if x = t then none else s.pending x }
      match s.children[h]? with
      | none => (s, [])
      | some p => s.osKill .child p.pid p.inst
  | .killDaemon d =>
    match s.daemons[d]? with
    | none => (s, [])
    | some (pid, inst) => s.osKill .daemon pid inst
  | .clean h =>
    match s.children[h]? with
    | none => (s, [])
    | some p => s.osKill .cleaner p.pid p.inst

/-- A history. Any interleaving of the steps of /repo/teleprox/process.py:206-343 and of other processes. -/
def PidSt.run (s : PidSt) : List PidEv → PidSt × List PidOut
  | [] => (s, [])
  | e :: es =>
    match s.step e with
    | (s, o) =>
      match s.run es with
      | (s, o') => (s, o ++ o')

end Verif
