import Verif.Model.System
import Verif.Model.Timer
/-!
# Timers of a server

`RPCServer.start_timer`, /repo/teleprox/server.py:484-498, and a timer whose callback is a proxy: its thread has a client of its own, and each
call of the callback is a request to the server.
-/
namespace Verif

/-- The callback the timer gets: a proxy as it is, anything else by a proxy to it. /repo/teleprox/server.py:496-497. -/
def Srv.timerCallback (H : Heap) (s : Srv) : Val → Srv × Val
  | .proxy p => (s, .proxy p)
  | v => s.proxyTo H v

/-- `start_timer(callback, interval, **kwds)`; /repo/teleprox/server.py:484-498: the server, and the callback of the timer with the timer and the
first event of its history. `interval` is the outcome of `float(interval)`; `limit` and `start` are those keywords, `other` the remaining ones.
The object of a new proxy is held by the server even if the timer cannot be made. -/
def Srv.startTimer (H : Heap) (s : Srv) (callback : Val) (interval : Except Exc Int) (limit : Option Int) (start : Option Bool) (other : List String) (now : Int) :
    Srv × Except Exc (Val × TimerSt × List TimerEv) :=
  let r := s.timerCallback H callback
  if other ≠ [] then (r.1, .error .typeError)
  else match interval with
    | .error e => (r.1, .error e)
    | .ok i => (r.1, .ok (r.2, TimerSt.init i limit now, if start.getD true then [.start, .check, .launch] else []))

/-- A server with its clients, and a timer whose callback is a proxy; `call` is the request its thread waits for.
/repo/teleprox/timer.py:26-36, /repo/teleprox/server.py:484-498. -/
structure TSys where
  sys : Sys
  tm : TimerSt
  call : Option Nat := none

/-- What the thread of the timer does in a call: the identity of its client, and the request `callback()` makes.
/repo/teleprox/timer.py:61-65, 81, /repo/teleprox/proxy.py:302-347. -/
structure TimerCall where
  name : Bytes
  action : String
  opts : Option Val
  returnType : String
  sync : String

/-- What can happen. Simplification: the client of the timer's thread is connected when its first call begins.
/repo/teleprox/timer.py:38-89. -/
inductive TEv where
  /-- anything of the server and of the clients, except requests of the timer's thread -/
  | sys (e : SEv)
  /-- the clock, `start` and `stop`, and the steps of the thread outside of calls -/
  | timer (e : TimerEv)
  /-- the thread calls the callback -/
  | call (E : SendEnv) (t : Refs)
  /-- the call returns or raises, since its future is done -/
  | back
  /-- the call raises TimeoutError -/
  | giveUp

/-- Not a request of client `n`; /repo/teleprox/client.py:227. -/
def SEv.notBy (n : Bytes) : SEv → Bool
  | .request m .. => decide (m ≠ n)
  | _ => true

/-- The step of the thread in a call is not made by `e`; /repo/teleprox/timer.py:81. -/
def TimerSt.apart (s : TimerSt) (e : TimerEv) : Bool :=
  match s.pc with
  | .turn => decide (e ≠ .go)
  | .inside => decide (e ≠ .go) && decide (e ≠ .fail)
  | _ => true

/-- What happens to the server and the clients in a step. /repo/teleprox/timer.py:81. -/
def TSys.sysEvs (C : TimerCall) (s : TSys) : TEv → List SEv
  | .sys e => if e.notBy C.name then [e] else []
  | .call E t => if s.tm.pc = .turn then [.request C.name E t C.action C.opts C.returnType C.sync] else []
  | _ => []

/-- How a call begins: the steps of the timer, and the request to wait for; /repo/teleprox/client.py:299-319. With `sync='async'` or `'off'` the call returns at once. -/
def TSys.begins (K : Codec) (C : TimerCall) (s : TSys) (E : SendEnv) (t : Refs) : List TimerEv × Option Nat :=
  match ((s.sys.cli C.name).send K E t C.action C.opts C.returnType C.sync).2.2.2 with
  | .error _ => ([.go, .fail], none)
  | .ok (.wait k) => ([.go], some k)
  | .ok _ => ([.go, .go], none)

/-- How a call ends: the step of the timer; /repo/teleprox/client.py:309-319. -/
def TSys.ends (C : TimerCall) (s : TSys) : Option (List TimerEv) :=
  match s.call with
  | none => none
  | some k =>
    match (s.sys.cli C.name).futs.get? k with
    | none | some .pending => none
    | some (.value _) => some [.go]
    | some _ => some [.fail]

/-- What happens to the timer in a step; /repo/teleprox/timer.py:38-89. -/
def TSys.timerEvs (K : Codec) (C : TimerCall) (s : TSys) : TEv → List TimerEv
  | .sys _ => []
  | .timer e => if s.tm.apart e then [e] else []
  | .call E t => if s.tm.pc = .turn then (s.begins K C E t).1 else []
  | .back => if s.tm.pc = .inside then (s.ends C).getD [] else []
  | .giveUp => if s.tm.pc = .inside ∧ s.call.isSome then [.fail] else []

/-- The request the thread waits for after a step; /repo/teleprox/timer.py:81. -/
def TSys.callAfter (K : Codec) (C : TimerCall) (s : TSys) : TEv → Option Nat
  | .call E t => if s.tm.pc = .turn then (s.begins K C E t).2 else s.call
  | .back => if s.tm.pc = .inside ∧ (s.ends C).isSome then none else s.call
  | .giveUp => if s.tm.pc = .inside then none else s.call
  | _ => s.call

/-- One step; /repo/teleprox/timer.py:38-89 with /repo/teleprox/client.py:227-319. -/
def TSys.step (K : Codec) (C : TimerCall) (s : TSys) (e : TEv) : TSys :=
  ⟨s.sys.run K (s.sysEvs C e), (s.tm.run (s.timerEvs K C e)).1, s.callAfter K C e⟩

/-- A run; any interleaving of /repo/teleprox/timer.py:38-89 with the server and the clients. -/
def TSys.run (K : Codec) (C : TimerCall) (s : TSys) : List TEv → TSys
  | [] => s
  | e :: es => (s.step K C e).run K C es

end Verif
