import Verif.Model.LogRemote
/-!
# Records that pass through several log servers

`set_logger_address` attaches a LogSender to the root logger (/repo/teleprox/log/remote.py:104-114), and the log server of a process gives the records it
reads to the logger 'teleprox.log.remote' (remote.py:15, 87, 265), which hands them up to the root logger. So a process that has both forwards what its
server reads.
-/
namespace Verif

/-- A process, as far as it concerns forwarding: its names, the process with the log server its sender is connected to (`none` without a sender), whether its own
log server filters by level, the levels of the logger of this server and of the parents of this logger.
/repo/teleprox/log/remote.py:20-22, 68-71, 237-248. -/
structure LogProc where
  names : LogNames
  next : Option Nat := none
  filter : Bool := true
  levels : List Int := [0]

/-- What becomes of a record handled in a process. /repo/teleprox/log/remote.py:160-183, 253-266. -/
inductive HopOut where
  /-- the process has no sender -/
  | kept
  /-- the thread of the sender dies of it -/
  | unsendable (e : Exc)
  /-- the thread of the server dies of it -/
  | unreadable (e : Exc)
  /-- it is below the level at the server -/
  | below (j : Nat)
  /-- it is handled in the process with the server -/
  | handled (j : Nat) (d : Fields)

/-- The sender on the root logger of process `i` forwards a record, and the server at the other end reads it; /repo/teleprox/log/remote.py:172-183, 258-265.
Simplifications: sender and server are alive and connected (see `SenderSt`, `LogSrvSt`); no logger is disabled, has a filter or stops what it hands up, and
`logger.handle` returns. -/
def hop (L : Lib) (fmt : Val → Val → Except Exc Val) (lt : Nat → Int → Bool) (P : Nat → LogProc) (i : Nat) (r : Fields) : HopOut :=
  match (P i).next with
  | none => .kept
  | some j =>
    match forwardFields fmt (P i).names r with
    | .error e => .unsendable e
    | .ok d =>
      match plainDumps L jsonDepth (Fields.val d) with
      | .error e => .unsendable e
      | .ok w =>
        match readRecord (some w) with
        | .error e => .unreadable e
        | .ok d =>
          if (P j).filter then
            match levelBelow lt d (effectiveLevel (P j).levels) with
            | .error e => .unreadable e
            | .ok true => .below j
            | .ok false => .handled j d
          else .handled j d

/-- Where a record logged in process `i` is handled afterwards, the first `n` times: the process, and the record it is there.
/repo/teleprox/log/remote.py:172-183, 258-265, in one process after the other. -/
def trail (L : Lib) (fmt : Val → Val → Except Exc Val) (lt : Nat → Int → Bool) (P : Nat → LogProc) : Nat → Nat → Fields → List (Nat × Fields)
  | 0, _, _ => []
  | n + 1, i, r =>
    match hop L fmt lt P i r with
    | .handled j d => (j, d) :: trail L fmt lt P n j d
    | _ => []

end Verif
