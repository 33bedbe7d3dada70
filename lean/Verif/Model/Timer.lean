import Verif.Model.Py
/-!
# Timers

/repo/teleprox/timer.py. One timer; its thread and any number of other threads that call `start` and `stop`. Each event below is one atomic
step; histories are arbitrary lists of events. An event that is not possible at that moment changes nothing.

Simplifications: times are integers (ticks of `time.perf_counter`, whose zero is arbitrary) instead of floats; `time.sleep` sleeps at least as
long as asked, by the same clock.
-/
namespace Verif

/-- Where the thread of the timer is. /repo/teleprox/timer.py:60-89. -/
inductive TimerPc where
  /-- not started yet -/
  | new
  /-- copying the callback, if it is a proxy; timer.py:61-65 -/
  | copying
  /-- at the head of the loop; timer.py:68 -/
  | head
  /-- has seen that `_last_call_time` is not None; timer.py:71 -/
  | sum
  /-- sleeping until this time; timer.py:73-74 -/
  | asleep (till : Int)
  /-- before the first locked section; timer.py:76 -/
  | ready
  /-- its turn taken, the callback not yet called; timer.py:81 -/
  | turn
  /-- in the callback -/
  | inside
  /-- callback returned, before the second locked section; timer.py:83 -/
  | counting
  /-- before the locked section of `finally`; timer.py:88 -/
  | ending
  /-- finished -/
  | dead
  deriving DecidableEq, Repr

/-- A timer, the clock, and the calls of `start` in progress: `starting` of them are before `is_alive` (timer.py:48), `launching` of them
before `thread.start()` (timer.py:51). `running` is an attribute that exists after the first `start` or `stop`. -/
structure TimerSt where
  interval : Int
  limit : Option Int
  now : Int
  pc : TimerPc := .new
  running : Option Bool := none
  last : Option Int := none
  count : Int := 0
  starting : Nat := 0
  launching : Nat := 0
  deriving DecidableEq, Repr

/-- Atomic steps. /repo/teleprox/timer.py:38-89. -/
inductive TimerEv where
  /-- the clock advances by `d` -/
  | tick (d : Nat)
  /-- somebody calls `start()`: its locked section -/
  | start
  /-- a call of `start` goes on with `is_alive()` -/
  | check
  /-- a call of `start` goes on with `thread.start()` -/
  | launch
  /-- somebody calls `stop()` -/
  | stop
  /-- the thread of the timer does its next step; the callback (or the copying of it) returns -/
  | go
  /-- the callback, or the copying of it, raises -/
  | fail
  deriving DecidableEq, Repr

/-- What can be observed. /repo/teleprox/timer.py:38-89. -/
inductive TimerOut where
  /-- the thread took its turn: it will call the callback, and this is the time it remembers -/
  | took (t : Int)
  /-- the callback begins -/
  | called (t : Int)
  /-- a call of `start` returned -/
  | started
  /-- a call of `start` raised -/
  | raised (e : Exc)
  /-- the thread died of an exception of its own -/
  | crashed (e : Exc)
  /-- the thread finished -/
  | finished
  deriving DecidableEq, Repr

/-- `Timer(callback, interval, limit)`; /repo/teleprox/timer.py:26-36. -/
def TimerSt.init (interval : Int) (limit : Option Int) (now : Int) : TimerSt := { interval, limit, now }

/-- The next step of the thread; /repo/teleprox/timer.py:60-89. -/
def TimerSt.go (s : TimerSt) : TimerSt × List TimerOut :=
  match s.pc with
  | .new | .dead => (s, [])
  | .copying => ({ s with pc := .head }, [])
  | .head =>
    match s.last with
    | none => ({ s with pc := .ready }, [])
    | some _ => ({ s with pc := .sum }, [])
  | .sum =>
    match s.last with
    | none => ({ s with pc := .ending }, [.crashed .typeError])   -- perf_counter() - None
    | some l =>
      let d := s.interval - (s.now - l)
      if d > 0 then ({ s with pc := .asleep (s.now + d) }, []) else ({ s with pc := .ready }, [])
  | .asleep u => if u ≤ s.now then ({ s with pc := .ready }, []) else (s, [])
  | .ready =>
    if s.running = some true then ({ s with last := some s.now, pc := .turn }, [.took s.now])
    else ({ s with pc := .ending }, [])
  | .turn => ({ s with pc := .inside }, [.called s.now])
  | .inside => ({ s with pc := .counting }, [])
  | .counting =>
    let s := { s with count := s.count + 1 }
    match s.limit with
    | none => ({ s with pc := .head }, [])
    | some n => if s.count ≥ n then ({ s with pc := .ending }, []) else ({ s with pc := .head }, [])
  | .ending => ({ s with running := some false, pc := .dead }, [.finished])

/-- `thread.is_alive()`. /repo/teleprox/timer.py:49. -/
def TimerPc.alive (p : TimerPc) : Bool := p ≠ .new && p ≠ .dead

/-- One atomic step; /repo/teleprox/timer.py:38-89. `Thread.start` of a thread that was started before raises RuntimeError. -/
def TimerSt.step (s : TimerSt) : TimerEv → TimerSt × List TimerOut
  | .tick d => ({ s with now := s.now + d }, [])
  | .start => ({ s with running := some true, last := none, count := 0, starting := s.starting + 1 }, [])
  | .check =>
    if s.starting = 0 then (s, [])
    else if s.pc.alive then ({ s with starting := s.starting - 1 }, [.started])
    else ({ s with starting := s.starting - 1, launching := s.launching + 1 }, [])
  | .launch =>
    if s.launching = 0 then (s, [])
    else if s.pc = .new then ({ s with launching := s.launching - 1, pc := .copying }, [.started])
    else ({ s with launching := s.launching - 1 }, [.raised .runtimeError])
  | .stop => ({ s with running := some false }, [])
  | .go => s.go
  | .fail =>
    if s.pc = .inside ∨ s.pc = .copying then ({ s with pc := .ending }, []) else (s, [])

/-- A history. Any interleaving of /repo/teleprox/timer.py:38-89. -/
def TimerSt.run (s : TimerSt) : List TimerEv → TimerSt × List TimerOut
  | [] => (s, [])
  | e :: es =>
    let (s₁, o₁) := s.step e
    let (s₂, o₂) := s₁.run es
    (s₂, o₁ ++ o₂)

end Verif
