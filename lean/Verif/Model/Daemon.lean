import Verif.Model.Process
/-!
# Daemon processes on a posix system

/repo/teleprox/bootstrap.py:32-46 and /repo/teleprox/process.py:189-195, 206, 215-217: `start_process(daemon=True)` launches a process which forks twice with `setsid` in between and then
replaces its standard files. The system around it has processes with parents, process groups, sessions, controlling terminals and open files; every other process may make any system
call at any time. Process numbers are not used again here (Kill.lean models that). Left out: stopped processes, subreapers (an orphan always goes to process 0), files sent through
sockets, `SIGCHLD` set to be ignored.
-/
namespace Verif

/-- Where a process is in bootstrap.py. /repo/teleprox/bootstrap.py:33-46. -/
inductive BootPc where
  /-- any other program; also the bootstrap of a process that is no daemon -/
  | user
  /-- process 0, which adopts orphans and waits for them -/
  | init
  /-- before the first `os.fork()`, bootstrap.py:34 -/
  | start
  /-- before `sys.exit(0)` of bootstrap.py:35 -/
  | exit1
  /-- before `os.setsid()`, bootstrap.py:36 -/
  | setsid
  /-- before the second `os.fork()`, bootstrap.py:37 -/
  | fork2
  /-- before `sys.exit(0)` of bootstrap.py:38 -/
  | exit2
  /-- before `open('/dev/null', 'r+')`, bootstrap.py:43 -/
  | open_
  /-- before `os.dup2(f, k)`, bootstrap.py:44-46 -/
  | dup (f k : Nat)
  /-- past bootstrap.py:46: the program of the daemon, which may make any system call -/
  | serving
  deriving DecidableEq, Repr

/-- The process may make any system call. Past /repo/teleprox/bootstrap.py:46, or not running its daemon part. -/
def BootPc.free : BootPc → Bool
  | .user | .serving => true
  | _ => false

/-- A process of the system. `live`: it has not ended (otherwise its parent has not waited for it). `fds`: open files by descriptor, a file being the system's open file description.
`line`: the daemon it is, or from which it was forked; no step depends on it. /repo/teleprox/bootstrap.py:33-46; /repo/teleprox/process.py:206. -/
structure UxProc where
  parent : Nat
  group : Nat
  session : Nat
  live : Bool := true
  pc : BootPc := .user
  fds : Nat → Option Nat := fun _ => none
  line : Option Nat := none

/-- The system: the processes, the next process number, the number of files opened so far, the controlling terminal of each session, the foreground group of each terminal.
/repo/teleprox/bootstrap.py:33-46; /repo/teleprox/process.py:101-111. -/
structure UxSt where
  procs : Nat → Option UxProc
  next : Nat
  files : Nat
  ctty : Nat → Option Nat
  fg : Nat → Nat

/-- The system at its start: process 0, and one program that has no terminal. All further processes, sessions and terminals come from events. The surroundings of
/repo/teleprox/bootstrap.py:33-46. -/
def UxSt.boot : UxSt where
  procs q := if q = 0 then some { parent := 0, group := 0, session := 0, pc := .init } else if q = 1 then some { parent := 0, group := 1, session := 1 } else none
  next := 2
  files := 0
  ctty _ := none
  fg _ := 0

/-- Why a signal is sent: the terminal was closed; a key of the terminal such as ctrl-c; the leader of the session of a terminal ended; `kill` with the number of the process; `kill`
with the number of a group. /repo/teleprox/process.py:103-106. -/
inductive UxCause where
  | hangup (n : Nat)
  | key (n : Nat)
  | leader (σ : Nat)
  | direct
  | group (g : Nat)
  deriving DecidableEq, Repr

/-- A signal and the process it reaches. /repo/teleprox/process.py:103-106. -/
structure UxSig where
  to : Nat
  cause : UxCause
  deriving DecidableEq, Repr

/-- What happens in the system. /repo/teleprox/bootstrap.py:33-46; /repo/teleprox/process.py:206, 215-217. -/
inductive UxEv where
  /-- `os.fork()` of any program -/
  | fork (p : Nat)
  /-- `os.setsid()` of any program -/
  | setsid (p : Nat)
  /-- `setpgid(q, g)` -/
  | setpgid (p q g : Nat)
  /-- a terminal is opened as descriptor `x` -/
  | openTty (p x n : Nat)
  /-- the foreground group of the terminal is set -/
  | setFg (p g : Nat)
  /-- a file is opened as descriptor `x` -/
  | opens (p x : Nat)
  /-- `dup2(x, y)` -/
  | dup (p x y : Nat)
  | close (p x : Nat)
  /-- a process ends, for whatever reason -/
  | ends (p : Nat)
  /-- `waitpid(q)` -/
  | wait (p q : Nat)
  /-- `Popen` of process.py:206 for a daemon (`true`) or another child -/
  | start (p : Nat) (daemon : Bool)
  /-- the next step of bootstrap.py:33-46 -/
  | boot (p : Nat)
  /-- the terminal is closed -/
  | hangup (n : Nat)
  /-- ctrl-c and the like -/
  | key (n : Nat)
  /-- `kill` with a process number -/
  | kill (q : Nat)
  /-- `kill` with a group -/
  | killGroup (g : Nat)
  deriving DecidableEq, Repr

/-- The entry of a process is replaced. Part of every step of /repo/teleprox/bootstrap.py:33-46. -/
def UxSt.put (s : UxSt) (p : Nat) (P : UxProc) : UxSt := { s with procs := fun q => if q = p then some P else s.procs q }

/-- A new process. Part of `os.fork`, /repo/teleprox/bootstrap.py:34, 37; /repo/teleprox/process.py:206. -/
def UxSt.birth (s : UxSt) (C : UxProc) : UxSt := { s.put s.next C with next := s.next + 1 }

/-- `fork`: the child has the group, session and files of its parent, the entry of the caller continues at `pc`, the child at `pc'` and with the given line.
/repo/teleprox/bootstrap.py:34, 37. -/
def UxSt.fork (s : UxSt) (p : Nat) (P : UxProc) (pc pc' : BootPc) (line : Option Nat) : UxSt :=
  (s.put p { P with pc := pc }).birth { P with parent := p, pc := pc', line := line }

/-- There is a process of this group (of this session, if given). The test of `setsid`, `setpgid`, `tcsetpgrp`, /repo/teleprox/bootstrap.py:36. -/
def UxSt.hasGroup (s : UxSt) (g : Nat) (σ : Option Nat) : Bool :=
  (List.range s.next).any fun q => match s.procs q with
    | some Q => Q.group = g && (match σ with | some σ => Q.session = σ | none => true)
    | none => false

/-- `setsid`: refused if there is a group with the number of the process; otherwise a new session and group, without a terminal. /repo/teleprox/bootstrap.py:36. -/
def UxSt.setsid (s : UxSt) (p : Nat) (P : UxProc) (pc : BootPc) : Option UxSt :=
  if s.hasGroup p none then none
  else some { s.put p { P with group := p, session := p, pc := pc } with ctty := fun σ => if σ = p then none else s.ctty σ }

/-- The living processes with a property, each with a signal. /repo/teleprox/process.py:103-106. -/
def UxSt.signal (s : UxSt) (c : UxCause) (f : Nat → UxProc → Bool) : List UxSig :=
  (List.range s.next).filterMap fun q => match s.procs q with
    | some Q => if Q.live && f q Q then some ⟨q, c⟩ else none
    | none => none

/-- The table after a process has ended: its children go to process 0, those among them that have ended are waited for there; it stays in the table if its parent lives and is not
process 0. Part of `sys.exit(0)`, /repo/teleprox/bootstrap.py:35, 38. -/
def UxSt.left (s : UxSt) (p : Nat) (P : UxProc) (q : Nat) : Option UxProc :=
  if q = p then
    match s.procs P.parent with
    | some R => if R.live && R.pc ≠ .init then some { P with live := false, fds := fun _ => none } else none
    | none => none
  else match s.procs q with
    | some Q => if Q.parent = p then (if Q.live then some { Q with parent := 0 } else none) else some Q
    | none => none

/-- A process ends. If it leads a session with a terminal, the foreground group gets a signal and the terminal is free again. `sys.exit(0)`, /repo/teleprox/bootstrap.py:35, 38; also
any other end. -/
def UxSt.ends (s : UxSt) (p : Nat) (P : UxProc) : UxSt × List UxSig :=
  match s.ctty p with
  | some n =>
    if P.session = p then ({ s with procs := s.left p P, ctty := fun σ => if σ = p then none else s.ctty σ }, s.signal (.leader p) fun _ Q => Q.group = s.fg n)
    else ({ s with procs := s.left p P }, [])
  | none => ({ s with procs := s.left p P }, [])

/-- The files of a process started by `Popen`: a daemon has /dev/null, opened for it, as 0, 1 and 2; another child has it as 0 and the files 1 and 2 of its parent; other descriptors are
closed. /repo/teleprox/process.py:183-195, 206. -/
def startFds (P : UxProc) (d : Nat) (daemon : Bool) : Nat → Option Nat := fun x =>
  if daemon then (if x < 3 then some d else none) else if x = 0 then some d else if x < 3 then P.fds x else none

/-- The lowest free descriptor, if those above 2 are free. `open`, /repo/teleprox/bootstrap.py:43; `Popen` has closed the descriptors above 2, /repo/teleprox/process.py:206. -/
def freeFd (fds : Nat → Option Nat) : Nat := if (fds 0).isNone then 0 else if (fds 1).isNone then 1 else if (fds 2).isNone then 2 else 3

/-- One step of the daemon part of bootstrap.py. A refused `setsid` raises PermissionError, which ends the process. /repo/teleprox/bootstrap.py:33-46. -/
def UxSt.bootStep (s : UxSt) (p : Nat) (P : UxProc) : UxSt × List UxSig :=
  match P.pc with
  | .start => (s.fork p P .exit1 .setsid P.line, [])
  | .exit1 => s.ends p P
  | .setsid =>
    match s.setsid p P .fork2 with
    | some s' => (s', [])
    | none => s.ends p P
  | .fork2 => (s.fork p P .exit2 .open_ (some s.next), [])
  | .exit2 => s.ends p P
  | .open_ =>
    let f := freeFd P.fds
    ({ s.put p { P with pc := .dup f 0, fds := fun x => if x = f then some s.files else P.fds x } with files := s.files + 1 }, [])
  | .dup f k => (s.put p { P with pc := if k < 2 then .dup f (k + 1) else .serving, fds := fun x => if x = k then P.fds f else P.fds x }, [])
  | _ => (s, [])

/-- A living process whose program may make any system call. Past /repo/teleprox/bootstrap.py:46. -/
def UxSt.caller (s : UxSt) (p : Nat) : Option UxProc :=
  match s.procs p with
  | some P => if P.live && P.pc.free then some P else none
  | none => none

/-- One event of the system; a refused call changes nothing. A terminal that no session has (any more) may still send signals to its last foreground group: more can happen than in reality. /repo/teleprox/bootstrap.py:33-46; /repo/teleprox/process.py:206, 215-217. -/
def UxSt.step (s : UxSt) : UxEv → UxSt × List UxSig
  | .fork p => match s.caller p with
    | some P => (s.fork p P P.pc .user P.line, [])
    | none => (s, [])
  | .setsid p => match s.caller p with
    | some P => match s.setsid p P P.pc with
      | some s' => (s', [])
      | none => (s, [])
    | none => (s, [])
  | .setpgid p q g => match s.caller p, s.procs q with
    | some P, some Q =>
      if (q = p ∨ Q.parent = p) ∧ Q.session = P.session ∧ Q.session ≠ q ∧ (g = q ∨ s.hasGroup g (some P.session) = true) then (s.put q { Q with group := g }, []) else (s, [])
    | _, _ => (s, [])
  | .openTty p x n => match s.caller p with
    | some P =>
      let s' := { s.put p { P with fds := fun y => if y = x then some s.files else P.fds y } with files := s.files + 1 }
      if P.session = p ∧ s.ctty p = none ∧ (∀ σ < s.next, s.ctty σ ≠ some n) then
        ({ s' with ctty := fun σ => if σ = p then some n else s.ctty σ, fg := fun m => if m = n then P.group else s.fg m }, [])
      else (s', [])
    | none => (s, [])
  | .setFg p g => match s.caller p with
    | some P => match s.ctty P.session with
      | some n => if s.hasGroup g (some P.session) then ({ s with fg := fun m => if m = n then g else s.fg m }, []) else (s, [])
      | none => (s, [])
    | none => (s, [])
  | .opens p x => match s.caller p with
    | some P => ({ s.put p { P with fds := fun y => if y = x then some s.files else P.fds y } with files := s.files + 1 }, [])
    | none => (s, [])
  | .dup p x y => match s.caller p with
    | some P => (s.put p { P with fds := fun z => if z = y then P.fds x else P.fds z }, [])
    | none => (s, [])
  | .close p x => match s.caller p with
    | some P => (s.put p { P with fds := fun y => if y = x then none else P.fds y }, [])
    | none => (s, [])
  | .ends p => match s.procs p with
    | some P => if P.live && P.pc ≠ .init then s.ends p P else (s, [])
    | none => (s, [])
  | .wait p q => match s.caller p, s.procs q with
    | some _, some Q => if Q.parent = p ∧ Q.live = false then ({ s with procs := fun r => if r = q then none else s.procs r }, []) else (s, [])
    | _, _ => (s, [])
  | .start p daemon => match s.caller p with
    | some P => ({ s.birth { P with parent := p, pc := if daemon then .start else .user, fds := startFds P s.files daemon } with files := s.files + 1 }, [])
    | none => (s, [])
  | .boot p => match s.procs p with
    | some P => if P.live then s.bootStep p P else (s, [])
    | none => (s, [])
  | .hangup n => (s, s.signal (.hangup n) fun q Q => (Q.session = q && s.ctty q = some n) || Q.group = s.fg n)
  | .key n => (s, s.signal (.key n) fun _ Q => Q.group = s.fg n)
  | .kill q => (s, s.signal .direct fun r _ => r = q)
  | .killGroup g => (s, s.signal (.group g) fun _ Q => Q.group = g)

/-- A history. /repo/teleprox/bootstrap.py:33-46. -/
def UxSt.run (s : UxSt) : List UxEv → UxSt × List UxSig
  | [] => (s, [])
  | e :: es =>
    let (s₁, o₁) := s.step e
    let (s₂, o₂) := s₁.run es
    (s₂, o₁ ++ o₂)

end Verif
