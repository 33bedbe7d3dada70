import Verif.Model.Py
/-!
# The end of a process and of the processes it started

`start_process` registers `stop` of the new `ChildProcess` with atexit (/repo/teleprox/process.py:277-278). A process ends when its server was
asked to close (/repo/teleprox/server.py:451-454, /repo/teleprox/bootstrap.py:117-125) or its program is over; before it is gone Python calls what
was registered, the last first, whatever the calls before raised. Every process may start processes.
-/
namespace Verif

/-- Where a process is. /repo/teleprox/bootstrap.py:117-125, /repo/teleprox/process.py:319-331. -/
inductive ProcPc where
  /-- its program or its server runs; bootstrap.py:118 -/
  | running
  /-- in something that never ends: a request (/repo/teleprox/server.py:355-368), a thread Python waits for -/
  | stuck
  /-- the calls registered with atexit that are left, before the `poll()` of the first; process.py:322 -/
  | exiting (todo : List Nat)
  /-- has asked the first one to close, waits for the answer and the end; process.py:326-329 -/
  | waiting (child : Nat) (todo : List Nat)
  | gone
  deriving DecidableEq, Repr

/-- A process: where it is, whether a close request has arrived at its server, whether it was killed by a signal, and its `ChildProcess` objects
in the order they were made. /repo/teleprox/process.py:266-278. -/
structure FamProc where
  pc : ProcPc := .running
  asked : Bool := false
  killed : Bool := false
  children : List Nat := []
  deriving DecidableEq, Repr

/-- The processes by number: those below `next` exist or did. /repo/teleprox/process.py:206, 266-278. -/
structure FamSt where
  procs : Nat → FamProc
  next : Nat

/-- One process, the main program. It calls /repo/teleprox/process.py:37-241. -/
def FamSt.init : FamSt := ⟨fun _ => {}, 1⟩

/-- What happens. /repo/teleprox/process.py:37-241, 266-278, 280-331 and /repo/teleprox/bootstrap.py:117-125. -/
inductive FamEv where
  /-- `start_process(daemon=daemon)` returns in process `p`; process.py:238-241 -/
  | start (p : Nat) (daemon : Bool)
  /-- anybody asks the server of `p` to close; /repo/teleprox/client.py:576-609 -/
  | ask (p : Nat)
  /-- the program of `p` is over for another reason: its last line, an exception, `sys.exit()` in the main thread; the end of bootstrap.py:125 -/
  | finish (p : Nat)
  /-- `p` begins something that never ends; /repo/teleprox/server.py:355-368 -/
  | hang (p : Nat)
  /-- a signal ends `p`, such as `ChildProcess.kill()`; process.py:309-317 -/
  | kill (p : Nat)
  /-- the server of `p` reads the close request, `run_forever` (or the Qt event loop) returns; bootstrap.py:118-125 -/
  | serve (p : Nat)
  /-- `p` begins the next `stop()`; process.py:322-326 -/
  | stop (p : Nat)
  /-- the child `p` waits for is gone, `stop()` returns; process.py:329 -/
  | ended (p : Nat)
  /-- `stop()` raises after its timeout, which Python prints; process.py:326, 329 -/
  | timeout (p : Nat)
  /-- nothing is left to call; the end of bootstrap.py:125 -/
  | exit (p : Nat)
  deriving DecidableEq, Repr

/-- Change of one process. Part of /repo/teleprox/process.py:266-331. -/
def FamSt.upd (s : FamSt) (p : Nat) (f : FamProc → FamProc) : FamSt := { s with procs := fun q => if q = p then f (s.procs q) else s.procs q }

/-- One event; those that cannot happen change nothing. /repo/teleprox/process.py:237-241, 266-278, 319-331 and /repo/teleprox/bootstrap.py:117-125.
Simplifications: starting a process is one step (see `Verif/Model/Process.lean` for what happens in it); requests to close do not get lost. -/
def FamSt.step (s : FamSt) : FamEv → FamSt
  | .start p daemon =>
    if p < s.next ∧ (s.procs p).pc = .running then
      let s' : FamSt := { (s.upd s.next fun _ => {}) with next := s.next + 1 }
      if daemon then s' else s'.upd p fun P => { P with children := P.children ++ [s.next] }
    else s
  | .ask p => if p < s.next then s.upd p fun P => { P with asked := true } else s
  | .finish p =>
    if p < s.next ∧ (s.procs p).pc = .running then s.upd p fun P => { P with pc := .exiting P.children.reverse } else s
  | .hang p => if p < s.next ∧ (s.procs p).pc = .running then s.upd p fun P => { P with pc := .stuck } else s
  | .kill p => if p < s.next ∧ (s.procs p).pc ≠ .gone then s.upd p fun P => { P with pc := .gone, killed := true } else s
  | .serve p =>
    if p < s.next ∧ (s.procs p).pc = .running ∧ (s.procs p).asked then s.upd p fun P => { P with pc := .exiting P.children.reverse } else s
  | .stop p =>
    match (s.procs p).pc with
    | .exiting (c :: todo) =>
      if (s.procs c).pc = .gone then s.upd p fun P => { P with pc := .exiting todo }
      else (s.upd c fun P => { P with asked := true }).upd p fun P => { P with pc := .waiting c todo }
    | _ => s
  | .ended p =>
    match (s.procs p).pc with
    | .waiting c todo => if (s.procs c).pc = .gone then s.upd p fun P => { P with pc := .exiting todo } else s
    | _ => s
  | .timeout p =>
    match (s.procs p).pc with
    | .waiting _ todo => s.upd p fun P => { P with pc := .exiting todo }
    | _ => s
  | .exit p =>
    match (s.procs p).pc with
    | .exiting [] => s.upd p fun P => { P with pc := .gone }
    | _ => s

/-- A history. Sequences of /repo/teleprox/process.py:237-241, 266-278, 319-331 and /repo/teleprox/bootstrap.py:117-125 in any processes. -/
def FamSt.run (s : FamSt) (es : List FamEv) : FamSt := es.foldl FamSt.step s

end Verif
