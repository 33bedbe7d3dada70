import Verif.Model.Address
/-!
# The sorting log handler

/repo/teleprox/log/handler.py:39-124. One handler, its polling thread, any number of threads that log and that flush. Each event is one atomic
step; histories are arbitrary lists of events.

Simplifications: times are integers (milliseconds) instead of floats; the names of host, process and threads used for headers do not change
during a history; `StreamHandler.emit` writes a record in one piece (threads writing at the same time are not torn apart).
-/
namespace Verif

/-- What the handler uses of a log record: its identity, `created`, `levelno`, `thread`, and the attributes `hostname`, `process_name` and
`thread_name` (present or not). Used at /repo/teleprox/log/handler.py:77, 85, 100, 106-108. -/
structure LogRec where
  uid : Nat
  created : Int
  level : Int
  thread : Nat
  hostname : Option String := none
  processName : Option String := none
  threadName : Option String := none
  deriving DecidableEq, Repr

/-- Surroundings of the handler: whether colorama is installed, `Formatter.format` (which may raise, e.g. for wrong format arguments), and the
names of this host, process and its threads. Used at /repo/teleprox/log/handler.py:15-36, 98, 106-108. -/
structure LogEnv where
  colorama : Bool
  text : LogRec → Except Exc String
  host : String
  process : String
  threads : Dict Nat String

/-- The escape sequence with number `n`. The constants of colorama used at /repo/teleprox/log/handler.py:18-34. -/
def ansi (n : String) : String := "\x1b[" ++ n ++ "m"

/-- `_level_color_map`; /repo/teleprox/log/handler.py:27-34. -/
def levelColors : Dict Int String :=
  [(0, ansi "2" ++ ansi "37"), (10, ansi "2" ++ ansi "37"), (20, ansi "1" ++ ansi "37"), (30, ansi "1" ++ ansi "33"),
   (40, ansi "1" ++ ansi "31"), (50, ansi "41")]

/-- `_thread_color_list`; /repo/teleprox/log/handler.py:18-25. -/
def threadColors : List String :=
  ["22", "1", "2"].flatMap fun i => ["32", "31", "36", "33", "34", "35"].map fun c => ansi i ++ ansi c

/-- Keys of `thread_headers`. /repo/teleprox/log/handler.py:109. -/
abbrev HeaderKey := String × String × String

/-- `get_thread_name(tid)`; /repo/teleprox/log/remote.py:59-66. -/
def LogEnv.threadName (E : LogEnv) (tid : Nat) : String := (E.threads.get? tid).getD (String.ofList (defaultThreadName tid))

/-- The key of a record; /repo/teleprox/log/handler.py:106-109. -/
def LogEnv.headerKey (E : LogEnv) (r : LogRec) : HeaderKey :=
  (r.hostname.getD E.host, r.processName.getD E.process, r.threadName.getD (E.threadName r.thread))

/-- `get_thread_header`; /repo/teleprox/log/handler.py:105-117. -/
def LogEnv.header (E : LogEnv) (hs : Dict HeaderKey String) (r : LogRec) : Dict HeaderKey String × String :=
  let key := E.headerKey r
  match hs.get? key with
  | some h => (hs, h)
  | none =>
    let h := "[" ++ key.1 ++ ":" ++ key.2.1 ++ ":" ++ key.2.2 ++ "]"
    let h := if E.colorama then threadColors.getD (hs.length % threadColors.length) "" ++ h ++ ansi "0" else h
    (hs.set key h, h)

/-- `format`; /repo/teleprox/log/handler.py:95-103. `levelno // 10 * 10` rounds towards minus infinity. -/
def LogEnv.format (E : LogEnv) (hs : Dict HeaderKey String) (r : LogRec) : Dict HeaderKey String × Except Exc String :=
  let (hs, header) := E.header hs r
  match E.text r with
  | .error e => (hs, .error e)
  | .ok message =>
    if E.colorama then
      match levelColors.get? (r.level / 10 * 10) with
      | none => (hs, .error .keyError)
      | some c => (hs, .ok (header ++ " " ++ (c ++ message ++ ansi "0")))
    else (hs, .ok (header ++ " " ++ message))

/-- What is observed: a line on the stream, or a record that could not be formatted (`Handler.handleError`).
/repo/teleprox/log/handler.py:91, 124. -/
inductive LogOut where
  | wrote (r : LogRec) (line : String)
  | failed (r : LogRec) (e : Exc)
  deriving DecidableEq, Repr

/-- Where the polling thread is. /repo/teleprox/log/handler.py:79-93. -/
inductive PollPc where
  /-- before reading the clock; handler.py:79 -/
  | top
  /-- before the locked section, with its limit; handler.py:81 -/
  | limited (limit : Int)
  /-- with records taken and still to be written; handler.py:86-88 -/
  | writing (todo : List LogRec)
  /-- asleep; handler.py:90 -/
  | asleep (till : Int)
  deriving DecidableEq, Repr

/-- A handler: the clock, the hold-back delay, `records`, the polling thread, the calls of `flush_records` that still have to write (each with
its records), and `thread_headers`. /repo/teleprox/log/handler.py:51, 61-66. -/
structure HandlerSt where
  now : Int
  delay : Int
  records : List LogRec := []
  poll : PollPc := .top
  flushes : List (List LogRec) := []
  headers : Dict HeaderKey String := []
  deriving DecidableEq, Repr

/-- Atomic steps. /repo/teleprox/log/handler.py:73-93, 119-124. -/
inductive HandlerEv where
  | tick (d : Nat)
  /-- a record is logged -/
  | emit (r : LogRec)
  /-- the polling thread does its next step -/
  | poll
  /-- somebody calls `flush_records`: its locked section -/
  | flush
  /-- the `i`-th call of `flush_records` in progress writes its next record, or returns -/
  | write (i : Nat)
  deriving DecidableEq, Repr

/-- `StreamHandler.emit(self, rec)`: writes the formatted record; an exception is passed to `handleError`, which does not raise.
/repo/teleprox/log/handler.py:91, 124 with 95-103. -/
def HandlerSt.put (E : LogEnv) (s : HandlerSt) (r : LogRec) : HandlerSt × List LogOut :=
  match E.format s.headers r with
  | (hs, .ok line) => ({ s with headers := hs }, [.wrote r line])
  | (hs, .error e) => ({ s with headers := hs }, [.failed r e])

/-- The next step of the polling thread; /repo/teleprox/log/handler.py:79-93. -/
def HandlerSt.pollStep (E : LogEnv) (s : HandlerSt) : HandlerSt × List LogOut :=
  match s.poll with
  | .top => ({ s with poll := .limited (s.now - s.delay) }, [])
  | .limited limit =>
    let old := s.records.takeWhile fun r => r.created < limit
    let s := { s with records := s.records.dropWhile fun r => r.created < limit }
    if old.length > 0 then ({ s with poll := .writing old }, []) else ({ s with poll := .asleep (s.now + 200) }, [])
  | .writing [] => ({ s with poll := .top }, [])
  | .writing (r :: rs) => ({ s with poll := .writing rs }).put E r
  | .asleep t => if t ≤ s.now then ({ s with poll := .top }, []) else (s, [])

/-- `r` into a sorted list, behind records created at the same time. Used at /repo/teleprox/log/handler.py:77. -/
def insertCreated (r : LogRec) : List LogRec → List LogRec
  | [] => [r]
  | x :: l => if r.created < x.created then r :: x :: l else x :: insertCreated r l

/-- `l.sort(key=lambda rec: rec.created)`: Python's sort is stable, so its result is that of insertion.
/repo/teleprox/log/handler.py:77. -/
def sortCreated (l : List LogRec) : List LogRec := l.foldl (fun acc r => insertCreated r acc) []

/-- One atomic step; /repo/teleprox/log/handler.py:73-93, 119-124. -/
def HandlerSt.step (E : LogEnv) (s : HandlerSt) : HandlerEv → HandlerSt × List LogOut
  | .tick d => ({ s with now := s.now + d }, [])
  | .emit r => ({ s with records := sortCreated (s.records ++ [r]) }, [])
  | .poll => s.pollStep E
  | .flush => ({ s with records := [], flushes := s.flushes ++ [s.records] }, [])
  | .write i =>
    match s.flushes[i]? with
    | none => (s, [])
    | some [] => ({ s with flushes := s.flushes.eraseIdx i }, [])
    | some (r :: rs) => ({ s with flushes := s.flushes.set i rs }).put E r

/-- A history. Any interleaving of /repo/teleprox/log/handler.py:73-93, 119-124. -/
def HandlerSt.run (E : LogEnv) (s : HandlerSt) : List HandlerEv → HandlerSt × List LogOut
  | [] => (s, [])
  | e :: es =>
    let (s₁, o₁) := s.step E e
    let (s₂, o₂) := s₁.run E es
    (s₂, o₁ ++ o₂)

/-- A new handler; /repo/teleprox/log/handler.py:53-66. The headers are shared by all handlers of the process (a class attribute). -/
def HandlerSt.init (now : Int) (headers : Dict HeaderKey String := []) : HandlerSt := { now, delay := 200, headers }

end Verif
