import Verif.Model.Py
/-!
# Threads that call each other

/repo/teleprox/client.py:227-319 (`send`), 448-500 (`process_until_future`), 193-211 (`_get_poller`), /repo/teleprox/server.py:444-454 (`run_forever`), 462-476 (`run_lazy`),
/repo/teleprox/server.py (`_read_and_process_one`, `_process_one`: one reply for each request that wants one, see C07). Here only who waits for whom matters: the contents
of calls and replies are left out, exceptions are replies like others, no server closes and no process ends. Names of clients are unique (see C41), so there is one channel for each pair
(thread, address). Each event below is an atomic step of one thread; threads are interleaved arbitrarily.
-/
namespace Verif

/-- What a thread does at the bottom: `run_forever`; or its own code with a server started by `run_lazy` (or a Qt event loop); or its own code without a server.
/repo/teleprox/server.py:444-475. -/
inductive ThreadKind where
  | loop | lazy | plain
  deriving DecidableEq, Repr

/-- The threads of all processes. `qt`: the server is a QtRPCServer, so that `processEvents` comes before the replies. `reentrant`: how the client of a thread for a server was made.
`leak`: whether code may wait for futures made by an outer call of its thread. /repo/teleprox/client.py:99, 193-211. -/
structure CallCfg where
  kind : Nat → ThreadKind := fun _ => .loop
  qt : Nat → Bool := fun _ => false
  reentrant : Nat → Nat → Bool := fun _ _ => true
  leak : Bool := false

/-- A request on its way: from, to, its id (`none` is -1: no reply wanted). `time` is not in the code: the number of requests made before it anywhere.
/repo/teleprox/client.py:302 and /repo/teleprox/server.py:238-250. -/
structure CallReq where
  src : Nat
  dst : Nat
  rid : Option Nat
  time : Nat
  deriving DecidableEq, Repr

/-- A future: the server it was sent to, its id; `time` as above. /repo/teleprox/client.py:308, 662-665. -/
structure CallFut where
  dst : Nat
  rid : Nat
  time : Nat
  deriving DecidableEq, Repr

/-- Code in progress: the thread, the request it serves (`none` for the thread's own code), the futures it made, the one it waits for, if any. `start` is not in the code.
/repo/teleprox/server.py:252-260, 348-361 and /repo/teleprox/client.py:448-500. -/
structure CallFrame where
  thread : Nat
  serving : Option CallReq := none
  futs : List CallFut := []
  waiting : Option CallFut := none
  start : Nat := 0
  deriving DecidableEq, Repr

/-- Everything: the count of requests, `next_request_id` of each client, requests and replies on their way (in the order sent), the futures done, and code in progress, newest first:
the first frame of a thread is the one it executes, the others wait below it.
/repo/teleprox/client.py:150-151, 303 and /repo/teleprox/server.py:343. -/
structure CallSt where
  time : Nat := 0
  ids : Nat → Nat → Nat := fun _ _ => 0
  requests : List CallReq := []
  replies : List (Nat × Nat × Nat) := []
  done : List (Nat × Nat × Nat) := []
  frames : List CallFrame := []

/-- The beginning: the code of each thread that has its own. Before /repo/teleprox/client.py:227 is called first. -/
def CallSt.init (own : List Nat) : CallSt := { frames := own.map fun t => ⟨t, none, [], none, 0⟩ }

/-- What a thread executes. The running call of /repo/teleprox/client.py:448-500 or /repo/teleprox/server.py:262-323. -/
def CallSt.top (s : CallSt) (t : Nat) : Option CallFrame := s.frames.find? fun f => f.thread = t

/-- Change the frame that a thread executes. For /repo/teleprox/client.py:448-500. -/
def setTop (t : Nat) (g : CallFrame → CallFrame) : List CallFrame → List CallFrame
  | [] => []
  | f :: r => if f.thread = t then g f :: r else f :: setTop t g r

/-- The frame that a thread executes is left. For /repo/teleprox/server.py:298-320. -/
def popTop (t : Nat) : List CallFrame → List CallFrame
  | [] => []
  | f :: r => if f.thread = t then r else f :: popTop t r

/-- Remove the first element that satisfies `p`. For /repo/teleprox/client.py:524 and /repo/teleprox/server.py:240. -/
def dropFirst {α : Type} (p : α → Bool) : List α → List α
  | [] => []
  | a :: r => if p a then r else a :: dropFirst p r

/-- Whether a future of a thread is done. /repo/teleprox/client.py:466. -/
def CallSt.isDone (s : CallSt) (t : Nat) (f : CallFut) : Bool := s.done.contains (t, f.dst, f.rid)

/-- Whether a reply for the client of thread `t` at server `d` has come. /repo/teleprox/client.py:477-493. -/
def CallSt.hasReply (s : CallSt) (t d : Nat) : Bool := s.replies.any fun m => m.1 = t ∧ m.2.1 = d

/-- What a thread does. /repo/teleprox/client.py:227, 448-500 and /repo/teleprox/server.py:252-320, 444-454. -/
inductive CallEv where
  /-- user code sends a request (`wants`: sync='sync' or 'async'; else 'off') -/
  | send (t dst : Nat) (wants : Bool)
  /-- user code calls `result()` of a future; `send(sync='sync')` is `send` and then `await` -/
  | await (t : Nat) (f : CallFut)
  /-- the waiting loop reads one reply -/
  | readReply (t : Nat)
  /-- the waiting loop, or `run_forever`, reads a request from `src` and begins to serve it -/
  | serve (t src : Nat)
  /-- the waiting loop ends since the future is done -/
  | resume (t : Nat)
  /-- the waiting loop ends with TimeoutError -/
  | giveUp (t : Nat)
  /-- user code ends; if it served a request that wants a reply, the reply is sent -/
  | finish (t : Nat)
  deriving DecidableEq, Repr

/-- Whether a thread may read a request now: in `run_forever`, or waiting through a reentrant client, with no reply to read first (except in Qt); /repo/teleprox/client.py:476-500. -/
def CallSt.mayServe (C : CallCfg) (s : CallSt) (t : Nat) : Bool :=
  match s.top t with
  | none => C.kind t = .loop
  | some f =>
    match f.waiting with
    | none => false
    | some w => C.kind t ≠ .plain ∧ C.reentrant t w.dst ∧ s.isDone t w = false ∧ (C.qt t ∨ s.hasReply t w.dst = false)

/-- One event; `none` if it is not possible.
/repo/teleprox/client.py:227-319, 448-529 and /repo/teleprox/server.py:252-320, 444-454. -/
def CallSt.step (C : CallCfg) (s : CallSt) : CallEv → Option CallSt
  | .send t dst wants =>
    match s.top t with
    | none => none
    | some f =>
      if f.waiting = none ∧ C.kind dst ≠ .plain then
        if wants then some { s with
          time := s.time + 1, ids := fun a b => if a = t ∧ b = dst then s.ids a b + 1 else s.ids a b, requests := s.requests ++ [⟨t, dst, some (s.ids t dst), s.time⟩],
          frames := setTop t (fun f => { f with futs := ⟨dst, s.ids t dst, s.time⟩ :: f.futs }) s.frames }
        else some { s with time := s.time + 1, requests := s.requests ++ [⟨t, dst, none, s.time⟩] }
      else none
  | .await t w =>
    match s.top t with
    | none => none
    | some f =>
      if f.waiting = none ∧ (w ∈ f.futs ∨ (C.leak ∧ ∃ g ∈ s.frames, g.thread = t ∧ w ∈ g.futs)) then
        some { s with frames := setTop t (fun f => { f with waiting := some w }) s.frames }
      else none
  | .readReply t =>
    match s.top t with
    | none => none
    | some f =>
      match f.waiting with
      | none => none
      | some w =>
        if s.isDone t w then none
        else
          match s.replies.find? fun m => m.1 = t ∧ m.2.1 = w.dst with
          | none => none
          | some m => some { s with replies := dropFirst (fun m => m.1 = t ∧ m.2.1 = w.dst) s.replies, done := m :: s.done }
  | .serve t src =>
    if s.mayServe C t then
      match s.requests.find? fun r => r.src = src ∧ r.dst = t with
      | none => none
      | some r => some { s with requests := dropFirst (fun r => r.src = src ∧ r.dst = t) s.requests, frames := ⟨t, some r, [], none, s.time⟩ :: s.frames }
    else none
  | .resume t =>
    match s.top t with
    | none => none
    | some f =>
      match f.waiting with
      | none => none
      | some w => if s.isDone t w then some { s with frames := setTop t (fun f => { f with waiting := none }) s.frames } else none
  | .giveUp t =>
    match s.top t with
    | none => none
    | some f =>
      match f.waiting with
      | none => none
      | some w => if s.isDone t w then none else some { s with frames := setTop t (fun f => { f with waiting := none }) s.frames }
  | .finish t =>
    match s.top t with
    | none => none
    | some f =>
      if f.waiting = none then
        match f.serving with
        | some r =>
          match r.rid with
          | some k => some { s with frames := popTop t s.frames, replies := s.replies ++ [(r.src, r.dst, k)] }
          | none => some { s with frames := popTop t s.frames }
        | none => if C.kind t = .plain then some { s with frames := popTop t s.frames } else none
      else none

/-- A history, if possible.
Any interleaving of /repo/teleprox/client.py:227-319, 448-529 and /repo/teleprox/server.py:252-320, 444-454. -/
def CallSt.run (C : CallCfg) (s : CallSt) : List CallEv → Option CallSt
  | [] => some s
  | e :: es => (s.step C e).bind fun s => s.run C es

end Verif
