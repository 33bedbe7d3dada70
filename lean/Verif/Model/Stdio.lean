import Verif.Model.Value
/-!
# Output of child processes

/repo/teleprox/log/stdio.py:6-24: a thread reads one pipe (stdout or stderr of a child) and logs its lines. The child writes bytes in pieces and finally
closes the pipe; histories are arbitrary lists of these events and of steps of the thread.
-/
namespace Verif

/-- `b.decode()` (strict UTF-8); UnicodeDecodeError is a ValueError. /repo/teleprox/log/stdio.py:21. -/
def pyDecode (b : Bytes) : Except Exc (List Char) :=
  match b.toByteArray.utf8Decode? with
  | some a => .ok a.toList
  | none => .error .valueError

/-- A poller: the bytes written and not read yet, whether the pipe is closed, whether its thread is alive.
/repo/teleprox/log/stdio.py:6-13. -/
structure PipeSt where
  buf : Bytes := []
  eof : Bool := false
  alive : Bool := true
  deriving DecidableEq, Repr

/-- Atomic steps. /repo/teleprox/log/stdio.py:15-24. -/
inductive PipeEv where
  /-- the child writes some bytes -/
  | wrote (b : Bytes)
  /-- the child closes the pipe -/
  | closed
  /-- the thread does one pass of its loop, if `readline` can return -/
  | go
  deriving DecidableEq, Repr

/-- What can be observed. /repo/teleprox/log/stdio.py:24. -/
inductive PipeOut where
  /-- `callback(text)` -/
  | logged (text : List Char)
  | ended
  | crashed (e : Exc)
  deriving DecidableEq, Repr

/-- `pipe.readline()`: the bytes up to and including the first newline; without a newline, everything if the pipe is closed; else it waits (`none`).
/repo/teleprox/log/stdio.py:21. -/
def PipeSt.readline (s : PipeSt) : Option (Bytes × Bytes) :=
  if 10 ∈ s.buf then some (s.buf.takeWhile (· ≠ 10) ++ [10], (s.buf.dropWhile (· ≠ 10)).drop 1)
  else if s.eof then some (s.buf, [])
  else none

/-- One pass of the loop of `PipePoller.run`; /repo/teleprox/log/stdio.py:20-24. The callback is assumed to return. -/
def PipeSt.go (pre : List Char) (s : PipeSt) : PipeSt × List PipeOut :=
  if s.alive = false then (s, [])
  else
    match s.readline with
    | none => (s, [])
    | some (b, rest) =>
      match pyDecode b with
      | .error e => ({ s with buf := rest, alive := false }, [.crashed e])
      | .ok line =>
        if line = [] then ({ s with buf := rest, alive := false }, [.ended])
        else ({ s with buf := rest }, [.logged (pre ++ line.dropLast)])

/-- One atomic step. /repo/teleprox/log/stdio.py:20-24. -/
def PipeSt.step (pre : List Char) (s : PipeSt) : PipeEv → PipeSt × List PipeOut
  | .wrote b => ({ s with buf := s.buf ++ b }, [])
  | .closed => ({ s with eof := true }, [])
  | .go => s.go pre

/-- A history. /repo/teleprox/log/stdio.py:15-24 while others write. -/
def PipeSt.run (pre : List Char) (s : PipeSt) : List PipeEv → PipeSt × List PipeOut
  | [] => (s, [])
  | e :: es =>
    let (s₁, o₁) := s.step pre e
    let (s₂, o₂) := s₁.run pre es
    (s₂, o₁ ++ o₂)

end Verif
