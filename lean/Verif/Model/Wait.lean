import Verif.Model.Client
/-!
# Waiting for a result

/repo/teleprox/client.py: `process_until_future`, `_read_and_process_one`, `Future.result`, with time in integer
nanoseconds (the code uses floats of seconds).
-/
namespace Verif

/-- One million nanoseconds. For /repo/teleprox/client.py:518. -/
def msec : Int := 1000000

/-- What happens in one turn of the loop of `process_until_future` (/repo/teleprox/client.py:466-500); the poller is
determined anew in every turn (line 476). `now` is the reading of `perf_counter` in line 471. -/
inductive Turn where
  /-- no poller (477-478): `recv` gives this message (`none`: it gives up), at time `after` -/
  | plain (now : Int) (got : Option (CliEnv × Wire)) (after : Int)
  /-- Qt (479-487): events are processed, in which user code uses this client (or raises), then `recv` waits 50 ms at most -/
  | qt (now : Int) (nested : List CEv) (r : Except Exc Unit) (got : Option (CliEnv × Wire)) (after : Int)
  /-- poller (488-500): this client's socket is readable -/
  | readable (now : Int) (P : CliEnv) (w : Wire) (after : Int)
  /-- poller: only the socket of the thread's server is readable; it handles a request, in which user code uses this
  client; nothing if there is no server any more -/
  | serve (now : Int) (nested : List CEv) (r : Except Exc Unit) (after : Int)
  /-- poller: nothing readable -/
  | idle (now : Int) (after : Int)

/-- The reading of the clock at the start of a turn. /repo/teleprox/client.py:471. -/
def Turn.now : Turn → Int
  | .plain n _ _ => n
  | .qt n _ _ _ _ => n
  | .readable n _ _ _ => n
  | .serve n _ _ _ => n
  | .idle n _ => n

/-- The time at which a turn ends. The end of /repo/teleprox/client.py:466-500. -/
def Turn.after : Turn → Int
  | .plain _ _ a => a
  | .qt _ _ _ _ a => a
  | .readable _ _ _ a => a
  | .serve _ _ _ a => a
  | .idle _ a => a

/-- How waiting ends. /repo/teleprox/client.py:448-500. -/
inductive Waited where
  /-- the loop is left normally -/
  | returned
  /-- an exception is raised, at this time -/
  | raised (e : Exc) (at_ : Int)
  /-- the turns are used up -/
  | waiting
  deriving DecidableEq, Repr

/-- The body of the loop after the check of the time; /repo/teleprox/client.py:476-500, 502-529. -/
def Cli.turn (K : Codec) (c : Cli) : Turn → Cli × Except Exc Unit
  | .plain _ none _ => (c, .error .timeoutError)
  | .plain _ (some (P, w)) _ => c.receive P w
  | .qt _ nested r got _ =>
    let c := (c.run K nested).1
    match r with
    | .error e => (c, .error e)
    | .ok () =>
      match got with
      | none => (c, .ok ())
      | some (P, w) =>
        match c.receive P w with
        | (c, .error .timeoutError) => (c, .ok ())
        | x => x
  | .readable _ P w _ => c.receive P w
  | .serve _ nested r _ => ((c.run K nested).1, r)
  | .idle _ _ => (c, .ok ())

/-- `itimeout < 0`; /repo/teleprox/client.py:468-474. -/
def expired (start : Int) (timeout : Option Int) (now : Int) : Bool :=
  match timeout with
  | some T => decide (T - (now - start) < 0)
  | none => false

/-- `process_until_future`; /repo/teleprox/client.py:466-500. Returns the turns not used. -/
def Cli.waitFor (K : Codec) (k : Nat) (start : Int) (timeout : Option Int) (c : Cli) : List Turn → Cli × Waited × List Turn
  | [] => (c, if c.done k then .returned else .waiting, [])
  | t :: ts =>
    if c.done k then (c, .returned, t :: ts)
    else if expired start timeout t.now then (c, .raised .timeoutError t.now, ts)
    else
      match c.turn K t with
      | (c, .ok ()) => c.waitFor K k start timeout ts
      | (c, .error e) => (c, .raised e t.after, ts)

/-- The milliseconds `recv` waits: `int(timeout * 1000)`; /repo/teleprox/client.py:515-518. -/
def rcvTimeo (remaining : Int) : Int := remaining / msec

/-- What zmq and the clock guarantee: the clock does not run backwards, and `recv` gives up only when the milliseconds
it was told have passed (without a timeout, never). About /repo/teleprox/client.py:465, 471, 515-524. -/
def Turn.Fair (start : Int) (timeout : Option Int) (t : Turn) : Prop :=
  start ≤ t.now ∧ t.now ≤ t.after ∧
  match t with
  | .plain now none after => ∃ T, timeout = some T ∧ now + rcvTimeo (T - (now - start)) * msec ≤ after
  | _ => True

/-- `concurrent.futures.Future.result` of a done future. /repo/teleprox/client.py:670-677. -/
inductive Result where
  | value (v : Val)
  | remoteCall (typeStr tb : Val)
  | runtimeError
  | exc (e : Exc)

/-- `Future.result(timeout)`; /repo/teleprox/client.py:670-677. `none` while waiting. -/
def Cli.result (K : Codec) (k : Nat) (start : Int) (timeout : Option Int) (c : Cli) (ts : List Turn) : Cli × Option Result × List Turn :=
  match c.waitFor K k start timeout ts with
  | (c, .waiting, ts) => (c, none, ts)
  | (c, .raised e _, ts) => (c, some (.exc e), ts)
  | (c, .returned, ts) =>
    (c, match c.futs.get? k with
      | some (.value v) => some (.value v)
      | some (.remote a b) => some (.remoteCall a b)
      | some .gone => some .runtimeError
      | _ => none, ts)

/-- `Future.done()` in a program with these messages in the socket: the socket is not looked at.
/repo/teleprox/client.py:647 (class `Future` does not override `done`). -/
def Cli.poll (k : Nat) (x : Cli × List Wire) : Bool × (Cli × List Wire) := (x.1.done k, x)

/-- The answers of `n` polls. Repeated `done()`, /repo/teleprox/client.py:647. -/
def Cli.polls (k : Nat) (x : Cli × List Wire) : Nat → List Bool
  | 0 => []
  | n + 1 => let (b, x) := Cli.poll k x; b :: Cli.polls k x n

end Verif
