import Verif.Model.Logging
/-!
# The log viewer

Models /repo/teleprox/log/logviewer.py:23-58: a widget that shows the records of a logger. The widget itself (layout, style sheet, lines 9-20 and 35-41) is not modelled, nor is what `print`
does with the text.
-/
namespace Verif

/-- A record: its number in the process, the thread that logged it, its logger and level. /repo/teleprox/log/logviewer.py:43, 57. -/
structure ViewRec where
  serial : Nat
  thread : Nat
  logger : LogName
  level : Int
  deriving DecidableEq, Repr

/-- A process with a viewer whose handler is the object `.user k`. `level` and `rejects` are what the user gave this handler with `setLevel` and `addFilter`; `queue` holds the calls of `new_record`
that Qt keeps for the thread of the widget, thread 0; `shown` what `new_record` has printed. /repo/teleprox/log/logviewer.py:23-58. -/
structure ViewSt where
  logging : Logging := {}
  serial : Nat := 0
  level : Int := 0
  rejects : List (ViewRec → Bool) := []
  queue : List ViewRec := []
  shown : List ViewRec := []

/-- What happens in the process. /repo/teleprox/log/logviewer.py:26-58. -/
inductive ViewEv where
  /-- `LogViewer(n)` -/
  | create (n : LogName)
  /-- something that concerns logging, in thread `t` -/
  | inThread (t : Nat) (e : LoggingEv)
  /-- `viewer.handler.setLevel(i)` -/
  | handlerLevel (i : Int)
  /-- `viewer.handler.addFilter(f)`, a filter that rejects these records -/
  | addFilter (rejects : ViewRec → Bool)
  /-- the event loop of thread 0 delivers a call -/
  | turn

/-- `self.new_record.emit(record)` in thread `t`: a connection to a method of the widget is a direct call in the thread of the widget, and queued in others.
/repo/teleprox/log/logviewer.py:31, 58. -/
def ViewSt.emit (s : ViewSt) (t : Nat) (r : ViewRec) : ViewSt :=
  if t = 0 then { s with shown := s.shown ++ [r] } else { s with queue := s.queue ++ [r] }

/-- `QtLogHandler.handle(record)`; /repo/teleprox/log/logviewer.py:57-58. It replaces `logging.Handler.handle`, which would ask the filters. -/
def ViewSt.handle (s : ViewSt) (t : Nat) (r : ViewRec) : ViewSt := s.emit t r

/-- `callHandlers` for this handler: the level of the handler is asked here. /repo/teleprox/log/logviewer.py:34. -/
def ViewSt.callHandler (s : ViewSt) (t : Nat) (r : ViewRec) : ViewSt := if s.level ≤ r.level then s.handle t r else s

/-- What the viewer sees of something that happens: the records that go to its handler, once for each time. /repo/teleprox/log/logviewer.py:34, 57. -/
def ViewSt.see (k : Nat) (t : Nat) : ViewSt → List LoggingOut → ViewSt
  | s, [] => s
  | s, .record n i sinks :: o =>
    let r : ViewRec := ⟨s.serial, t, n, i⟩
    let s := (sinks.filter (· = .handler (.user k))).foldl (fun s _ => s.callHandler t r) s
    ViewSt.see k t { s with serial := s.serial + 1 } o
  | s, _ :: o => ViewSt.see k t s o

/-- One event. /repo/teleprox/log/logviewer.py:26-58. -/
def ViewSt.step (k : Nat) (s : ViewSt) : ViewEv → ViewSt
  | .create n => { s with logging := (s.logging.step (.addHandler n k)).1 }
  | .inThread t e => match s.logging.step e with | (l, o) => ViewSt.see k t { s with logging := l } o
  | .handlerLevel i => { s with level := i }
  | .addFilter f => { s with rejects := s.rejects ++ [f] }
  | .turn =>
    match s.queue with
    | [] => s
    | r :: q => { s with queue := q, shown := s.shown ++ [r] }

/-- A history. /repo/teleprox/log/logviewer.py:26-58 in sequence. -/
def ViewSt.run (k : Nat) (s : ViewSt) (es : List ViewEv) : ViewSt := es.foldl (ViewSt.step k) s

end Verif
