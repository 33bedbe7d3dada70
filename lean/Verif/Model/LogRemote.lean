import Verif.Model.Serializer
/-!
# Forwarding log records between processes

/repo/teleprox/log/remote.py. The attributes of a log record are a dict from names to Python values. JSON text is a `Wire` tree, as in
`Verif.Model.Serializer`.

Each event is one atomic step; histories are arbitrary lists of events.
-/
namespace Verif

/-! ## json.dumps and json.loads without hooks -/

/-- Apply a raising function to the items of a list in order. Used for lists inside /repo/teleprox/log/remote.py:183, 261. -/
def mapE {α β : Type} (f : α → Except Exc β) : List α → Except Exc (List β)
  | [] => .ok []
  | a :: as =>
    match f a with
    | .error e => .error e
    | .ok b =>
      match mapE f as with
      | .error e => .error e
      | .ok bs => .ok (b :: bs)

/-- `json.dumps(v)`; used by /repo/teleprox/log/remote.py:183. The first argument is the remaining recursion depth (as in `jpack`). Objects JSON does not
know raise TypeError. -/
def plainDumps (L : Lib) : Nat → Val → Except Exc Wire
  | 0, _ => .error (.other "RecursionError")
  | n + 1, v =>
    match v.core with
    | .none => .ok .nil
    | .bool b => .ok (.bool b)
    | .int i => .ok (.int i)
    | .float f => .ok (.float f)
    | .str s => .ok (.str s)
    | .list l =>
      match mapE (plainDumps L n) l with
      | .ok ws => .ok (.arr ws)
      | .error e => .error e
    | .tuple l =>
      match mapE (plainDumps L n) l with
      | .ok ws => .ok (.arr ws)
      | .error e => .error e
    | .dict d =>
      match mapE (fun kv => match jkey L kv.1 with
          | .error e => .error e
          | .ok k =>
            match plainDumps L n kv.2 with
            | .error e => .error e
            | .ok w => .ok (Wire.str k, w)) d with
      | .ok m => .ok (.map m)
      | .error e => .error e
    | .npScalar s =>
      match s.dtype.kind, s.dtype.itemsize, s.val with
      | .floating, 8, .float f => .ok (.float f)
      | _, _, _ => .error .typeError
    | _ => .error .typeError

mutual
/-- `json.loads(msg)`; used by /repo/teleprox/log/remote.py:261. -/
def plainLoads : Wire → Except Exc Val
  | .nil => .ok .none
  | .bool b => .ok (.bool b)
  | .int i => .ok (.int i)
  | .float f => .ok (.float f)
  | .str s => .ok (.str s)
  | .bin _ => .error .valueError
  | .arr l =>
    match plainLoadsL l with
    | .ok vs => .ok (.list vs)
    | .error e => .error e
  | .map m =>
    match plainLoadsM m with
    | .ok d => .ok (.dict (dictOf d))
    | .error e => .error e

/-- Items of an array. Part of /repo/teleprox/log/remote.py:261. -/
def plainLoadsL : List Wire → Except Exc (List Val)
  | [] => .ok []
  | w :: ws =>
    match plainLoads w with
    | .error e => .error e
    | .ok v =>
      match plainLoadsL ws with
      | .ok vs => .ok (v :: vs)
      | .error e => .error e

/-- Entries of an object. Part of /repo/teleprox/log/remote.py:261. -/
def plainLoadsM : List (Wire × Wire) → Except Exc (List (Val × Val))
  | [] => .ok []
  | (.str k, w) :: r =>
    match plainLoads w with
    | .error e => .error e
    | .ok v =>
      match plainLoadsM r with
      | .ok d => .ok ((.str k, v) :: d)
      | .error e => .error e
  | (_, _) :: _ => .error .valueError
end

/-! ## LogSender -/

/-- The attributes of a log record (`record.__dict__`). /repo/teleprox/log/remote.py:175. -/
abbrev Fields := Dict String Val

/-- The names used for logging; /repo/teleprox/log/remote.py:20-22. -/
structure LogNames where
  host : String
  process : Option String
  threads : Dict Int String
  deriving DecidableEq, Repr

/-- `len(args)`; TypeError for values without length. /repo/teleprox/log/remote.py:177. -/
def Val.pyLen (v : Val) : Except Exc Nat :=
  match v.core with
  | .tuple l => .ok l.length
  | .list l => .ok l.length
  | .dict d => .ok d.length
  | .str s => .ok s.length
  | .bytes b => .ok b.length
  | _ => .error .typeError

/-- `thread_names.get(thread, threadName)`: the ident of a thread is an int (or None). /repo/teleprox/log/remote.py:181. -/
def LogNames.thread (N : LogNames) (ident name : Val) : Val :=
  match ident with
  | .int i =>
    match N.threads.get? i with
    | some s => .str s
    | none => name
  | _ => name

/-- `LogSender._handle` up to the dict that is sent; /repo/teleprox/log/remote.py:175-182. `fmt msg args` is Python's `msg % args`. -/
def forwardFields (fmt : Val → Val → Except Exc Val) (N : LogNames) (r : Fields) : Except Exc Fields :=
  match r.get? "args" with
  | none => .error .keyError
  | some args =>
    let d := r.erase "args"
    match args.pyLen with
    | .error e => .error e
    | .ok n =>
      match (if n > 0 then
          match d.get? "msg" with
          | none => .error .keyError
          | some msg =>
            match fmt msg args with
            | .error e => .error e
            | .ok m => .ok (d.set "msg" m)
        else .ok d : Except Exc Fields) with
      | .error e => .error e
      | .ok d =>
        let d := match N.process with | some p => d.set "process_name" (.str p) | none => d
        match d.get? "thread" with
        | none => .error .keyError
        | some ident =>
          match d.get? "threadName" with
          | none => .error .keyError
          | some name =>
            let d := d.set "thread_name" (N.thread ident name)
            .ok (d.set "host_name" (.str N.host))

/-- The dict with these attributes as a value. The argument of `json.dumps`, /repo/teleprox/log/remote.py:183. -/
def Fields.val (d : Fields) : Val := .dict (d.map fun kv => (.str kv.1, kv.2))

/-- Where the thread of a sender is. /repo/teleprox/log/remote.py:164-183. -/
inductive SendPc where
  /-- waiting for the queue; remote.py:164 -/
  | idle
  /-- has a record; remote.py:172 -/
  | got (r : Fields)
  /-- has seen that there is a socket; remote.py:174 -/
  | checked (r : Fields)
  /-- calls `send` of this socket with this message; remote.py:182 -/
  | sending (r : Fields) (sock : Nat) (w : Wire)
  /-- ended by `close()` -/
  | finished
  /-- died of an exception -/
  | crashed

/-- A LogSender: whether its queue exists yet, its socket, the sockets closed, the addresses sockets are connected to, the number of sockets
made, the queue (`none` ends the thread), its thread, and the names (global variables of the module).
/repo/teleprox/log/remote.py:139-158. -/
structure SenderSt where
  built : Bool
  sock : Option Nat := none
  closed : List Nat := []
  addrs : Dict Nat Bytes := []
  nsock : Nat := 0
  queue : List (Option Fields) := []
  pc : SendPc := .idle
  names : LogNames

/-- Atomic steps. /repo/teleprox/log/remote.py:139-203. -/
inductive SenderEv where
  /-- the constructor makes the queue and starts the thread; remote.py:151-153. The handler is attached to its logger before. -/
  | build
  /-- a record is logged -/
  | handle (r : Fields)
  /-- the thread does its next step -/
  | go
  /-- `connect`: closes the old socket; remote.py:189-190 -/
  | connectClose
  /-- `connect`: makes a new socket and connects it (`none`: the address is refused); remote.py:192-194 -/
  | connectOpen (a : Option Bytes)
  /-- `close`: puts None; remote.py:199 -/
  | closePut
  /-- `close`: takes and closes the socket; remote.py:200-202 -/
  | closeSwap
  /-- somebody changes the names -/
  | rename (N : LogNames)

/-- What can be observed. /repo/teleprox/log/remote.py:160-203. -/
inductive SenderOut where
  /-- a record is sent as this message to this address -/
  | sent (a : Bytes) (r : Fields) (w : Wire)
  /-- a record is dropped because there is no socket -/
  | dropped (r : Fields)
  /-- the thread dies handling this record -/
  | crashed (r : Fields) (e : Exc)
  /-- the thread ends -/
  | ended
  /-- logging (or connecting) raises in the calling thread -/
  | raised (e : Exc)

/-- The next step of the thread; /repo/teleprox/log/remote.py:164-183. A message sent on a socket that is not connected yet waits until it is. -/
def SenderSt.go (L : Lib) (fmt : Val → Val → Except Exc Val) (s : SenderSt) : SenderSt × List SenderOut :=
  if s.built = false then (s, []) else
  match s.pc with
  | .idle =>
    match s.queue with
    | [] => (s, [])
    | none :: q => ({ s with queue := q, pc := .finished }, [.ended])
    | some r :: q => ({ s with queue := q, pc := .got r }, [])
  | .got r =>
    match s.sock with
    | none => ({ s with pc := .idle }, [.dropped r])
    | some _ => ({ s with pc := .checked r }, [])
  | .checked r =>
    match forwardFields fmt s.names r with
    | .error e => ({ s with pc := .crashed }, [.crashed r e])
    | .ok d =>
      match s.sock with
      | none => ({ s with pc := .crashed }, [.crashed r .attributeError])     -- None.send
      | some k =>
        match plainDumps L jsonDepth (Fields.val d) with
        | .error e => ({ s with pc := .crashed }, [.crashed r e])
        | .ok w => ({ s with pc := .sending r k w }, [])
  | .sending r k w =>
    if k ∈ s.closed then ({ s with pc := .crashed }, [.crashed r .zmqError])
    else
      match s.addrs.get? k with
      | some a => ({ s with pc := .idle }, [.sent a r w])
      | none => (s, [])
  | .finished | .crashed => (s, [])

/-- One atomic step; /repo/teleprox/log/remote.py:139-203. -/
def SenderSt.step (L : Lib) (fmt : Val → Val → Except Exc Val) (s : SenderSt) : SenderEv → SenderSt × List SenderOut
  | .build => ({ s with built := true }, [])
  | .handle r => if s.built then ({ s with queue := s.queue ++ [some r] }, []) else (s, [.raised .attributeError])
  | .go => s.go L fmt
  | .connectClose =>
    match s.sock with
    | none => (s, [])
    | some k => ({ s with closed := k :: s.closed }, [])
  | .connectOpen a =>
    match a with
    | none => ({ s with sock := some s.nsock, nsock := s.nsock + 1 }, [.raised .zmqError])
    | some a => ({ s with sock := some s.nsock, nsock := s.nsock + 1, addrs := s.addrs.set s.nsock a }, [])
  | .closePut => if s.built then ({ s with queue := s.queue ++ [none] }, []) else (s, [.raised .attributeError])
  | .closeSwap =>
    match s.sock with
    | none => (s, [])
    | some k => ({ s with sock := none, closed := k :: s.closed }, [])
  | .rename N => ({ s with names := N }, [])

/-- A history. Any interleaving of /repo/teleprox/log/remote.py:160-203. -/
def SenderSt.run (L : Lib) (fmt : Val → Val → Except Exc Val) (s : SenderSt) : List SenderEv → SenderSt × List SenderOut
  | [] => (s, [])
  | e :: es =>
    let (s₁, o₁) := s.step L fmt e
    let (s₂, o₂) := s₁.run L fmt es
    (s₂, o₁ ++ o₂)

/-- A new sender with this address: built and connected. /repo/teleprox/log/remote.py:139-158. -/
def SenderSt.init (N : LogNames) (a : Bytes) : SenderSt :=
  { built := true, sock := some 0, addrs := [(0, a)], nsock := 1, names := N }

/-! ## LogServer -/

/-- `logger.getEffectiveLevel()`: the first level in the chain of parents that is set. Used at /repo/teleprox/log/remote.py:263. -/
def effectiveLevel : List Int → Int
  | [] => 0
  | l :: r => if l ≠ 0 then l else effectiveLevel r

/-- The attributes `logging.makeLogRecord` starts with. Simplification: those that depend on the moment (created, thread, process, ...) are left out; a
record sent by a LogSender overwrites them all. Part of /repo/teleprox/log/remote.py:262. -/
def defaultRecord : Fields :=
  [("name", .none), ("msg", .str ""), ("args", .tuple []), ("levelname", .str "Level None"), ("levelno", .none), ("pathname", .str ""),
   ("exc_info", .none), ("exc_text", .none), ("stack_info", .none), ("lineno", .int 0), ("funcName", .none)]

/-- `rec.__dict__.update(kwds)` in `logging.makeLogRecord`. Part of /repo/teleprox/log/remote.py:262. -/
def updateFields : Fields → List (Val × Val) → Except Exc Fields
  | d, [] => .ok d
  | d, (.str k, v) :: r => updateFields (d.set k v) r
  | _, _ :: _ => .error .typeError

/-- `rec.__dict__.update(items)` with something that is no dict: every item must be a sequence of two, a key and a value. Keys that are no texts name no attribute; they are
left out. Part of /repo/teleprox/log/remote.py:262. -/
def updateSeq : Fields → List Val → Except Exc Fields
  | d, [] => .ok d
  | d, v :: r =>
    match v.items with
    | none => .error .typeError
    | some [.str k, x] => updateSeq (d.set k x) r
    | some [.list _, _] => .error .typeError
    | some [.dict _, _] => .error .typeError
    | some [_, _] => updateSeq d r
    | some _ => .error .valueError

/-- `makeLogRecord(json.loads(msg))`; /repo/teleprox/log/remote.py:261-262. `none` is a message that is not JSON. -/
def readRecord (m : Option Wire) : Except Exc Fields :=
  match m with
  | none => .error .valueError
  | some w =>
    match plainLoads w with
    | .error e => .error e
    | .ok (.dict d) => updateFields defaultRecord d
    | .ok v =>
      match v.items with
      | none => .error .typeError
      | some l => updateSeq defaultRecord l

/-- `rec.levelno < n`; `lt bits n` compares a float. TypeError for values that are no numbers. /repo/teleprox/log/remote.py:263. -/
def levelBelow (lt : Nat → Int → Bool) (r : Fields) (n : Int) : Except Exc Bool :=
  match r.get? "levelno" with
  | some (.int i) => .ok (i < n)
  | some (.bool b) => .ok ((if b then 1 else 0) < n)
  | some (.float f) => .ok (lt f n)
  | _ => .error .typeError

/-- A LogServer: `filter_by_level`, the levels of its logger and its parents, the messages that arrived, `running`, whether its thread is alive.
/repo/teleprox/log/remote.py:237-248. -/
structure LogSrvSt where
  filter : Bool
  levels : List Int
  inbox : List (Option Wire) := []
  running : Bool := true
  alive : Bool := true

/-- Atomic steps. /repo/teleprox/log/remote.py:250-266. -/
inductive LogSrvEv where
  /-- a message arrives -/
  | arrive (m : Option Wire)
  /-- the thread goes once through its loop -/
  | go
  /-- the levels of the loggers change -/
  | setLevels (l : List Int)
  | stop

/-- What can be observed. /repo/teleprox/log/remote.py:253-266. -/
inductive LogSrvOut where
  /-- a record is read while the logger has this level -/
  | read (r : Fields) (level : Int)
  /-- a record is passed to `logger.handle` -/
  | handled (r : Fields)
  /-- the thread dies -/
  | crashed (e : Exc)
  /-- the thread ends -/
  | ended

/-- One pass of the loop; /repo/teleprox/log/remote.py:253-266. `logger.handle` is assumed to return. -/
def LogSrvSt.go (lt : Nat → Int → Bool) (s : LogSrvSt) : LogSrvSt × List LogSrvOut :=
  if s.alive = false then (s, [])
  else if s.running = false then ({ s with alive := false }, [.ended])
  else
    match s.inbox with
    | [] => (s, [])
    | m :: r =>
      let s := { s with inbox := r }
      match readRecord m with
      | .error e => ({ s with alive := false }, [.crashed e])
      | .ok d =>
        let lvl := effectiveLevel s.levels
        if s.filter then
          match levelBelow lt d lvl with
          | .error e => ({ s with alive := false }, [.crashed e])
          | .ok true => (s, [.read d lvl])
          | .ok false => (s, [.read d lvl, .handled d])
        else (s, [.read d lvl, .handled d])

/-- One atomic step; /repo/teleprox/log/remote.py:250-266. -/
def LogSrvSt.step (lt : Nat → Int → Bool) (s : LogSrvSt) : LogSrvEv → LogSrvSt × List LogSrvOut
  | .arrive m => ({ s with inbox := s.inbox ++ [m] }, [])
  | .go => s.go lt
  | .setLevels l => ({ s with levels := l }, [])
  | .stop => ({ s with running := false }, [])

/-- A history. Any interleaving of /repo/teleprox/log/remote.py:250-266. -/
def LogSrvSt.run (lt : Nat → Int → Bool) (s : LogSrvSt) : List LogSrvEv → LogSrvSt × List LogSrvOut
  | [] => (s, [])
  | e :: es =>
    let (s₁, o₁) := s.step lt e
    let (s₂, o₂) := s₁.run lt es
    (s₂, o₁ ++ o₂)

/-! ## The log address of a process -/

/-- Global variables of /repo/teleprox/log/remote.py:68-71 (`server` by its address). -/
structure LogGlobals where
  server : Option Bytes := none
  sender : Option Bytes := none
  serverAddr : Option Bytes := none
  deriving DecidableEq, Repr

/-- Calls of the three functions. /repo/teleprox/log/remote.py:76, 90, 104. -/
inductive LogGlobalEv where
  /-- `start_log_server()`; the new server would get this address -/
  | startServer (a : Bytes)
  | setAddress (a : Bytes)
  | getAddress
  deriving DecidableEq, Repr

/-- Their results. /repo/teleprox/log/remote.py:76-114. -/
inductive LogGlobalOut where
  | done
  | raised
  | address (a : Option Bytes)
  deriving DecidableEq, Repr

/-- /repo/teleprox/log/remote.py:76-114. -/
def LogGlobals.step (g : LogGlobals) : LogGlobalEv → LogGlobals × LogGlobalOut
  | .startServer a => if g.server ≠ none then (g, .raised) else ({ g with server := some a }, .done)
  | .setAddress a => ({ g with sender := some a, serverAddr := some a }, .done)
  | .getAddress => (g, .address (match g.server with | none => g.serverAddr | some a => some a))

/-- A sequence of calls. /repo/teleprox/log/remote.py:76-114 in sequence. -/
def LogGlobals.run (g : LogGlobals) : List LogGlobalEv → LogGlobals × List LogGlobalOut
  | [] => (g, [])
  | e :: es =>
    let (g₁, o₁) := g.step e
    let (g₂, o₂) := g₁.run es
    (g₂, o₁ :: o₂)

end Verif
