import Verif.Model.Digits
/-!
# Client names and server addresses

/repo/teleprox/client.py:104-105, 173-191 and /repo/teleprox/util.py:120-148. Text is a list of characters. The UTF-8 encoding of
names and the decoding of addresses are not modelled: encoding is one to one, and `address.decode()` of an address that is
not UTF-8 raises before anything else happens.
-/
namespace Verif

/-- The name of a client, which is also the identity of its socket: `"%s.%s.%s:%s"`; /repo/teleprox/client.py:104-105, 135-136. -/
def clientName (host process thread address : List Char) : List Char :=
  host ++ '.' :: process ++ '.' :: thread ++ ':' :: address

/-- `"process-%d" % os.getpid()`, the process name unless another one is set; /repo/teleprox/log/remote.py:21. -/
def defaultProcessName (pid : Nat) : List Char := "process-".toList ++ Nat.toDigits 10 pid

/-- `'thread-%x' % tid`, the thread name unless another one is set; /repo/teleprox/log/remote.py:59-66. -/
def defaultThreadName (tid : Nat) : List Char := "thread-".toList ++ Nat.toDigits 16 tid

/-- `(\d+)$` at the start of `r`: the digits, if there are any and the text ends after them or after one more newline. A shorter match of
`\d+` would be followed by a digit, where `$` does not match. Part of the pattern at /repo/teleprox/client.py:185. -/
def matchPort (r : List Char) : Option (List Char) :=
  let d := r.takeWhile isUniDigit
  let e := r.dropWhile isUniDigit
  if d ≠ [] ∧ (e = [] ∨ e = ['\n']) then some d else none

/-- `(.+):(\d+)$` where `.+` takes at most `n` characters of `r`; longer matches are tried first.
Part of the pattern at /repo/teleprox/client.py:185. -/
def matchHostPort (r : List Char) : Nat → Option (List Char × List Char)
  | 0 => none
  | n + 1 =>
    match r.drop (n + 1) with
    | ':' :: q =>
      match matchPort q with
      | some d => some (r.take (n + 1), d)
      | none => matchHostPort r n
    | _ => matchHostPort r n

/-- `re.match(r'^tcp://(.+):(\d+)$', s)`; /repo/teleprox/client.py:185. The dot matches everything but a newline. -/
def matchTcp (s : List Char) : Option (List Char × List Char) :=
  match s with
  | 't' :: 'c' :: 'p' :: ':' :: '/' :: '/' :: r => matchHostPort r (r.takeWhile (· ≠ '\n')).length
  | _ => none

/-- The outcome of `s.connect((host, port))`: `timeout` is `socket.timeout`, `osError` any other `OSError` (refused connections among
them), `raised` any other exception (`OverflowError` for ports above 65535, `UnicodeError`). Used at /repo/teleprox/util.py:142-148. -/
inductive Connect where
  | accepted | timeout | osError
  | raised (e : Exc)
  deriving DecidableEq, Repr

/-- `check_tcp_port` except on Windows; /repo/teleprox/util.py:139-148. -/
def checkTcpPort (net : List Char → Nat → Connect) (host : List Char) (port : Nat) : Except Exc String :=
  match net host port with
  | .accepted => .ok "open"
  | .timeout => .ok "timeout"
  | .osError => .ok "closed"
  | .raised e => .error e

/-- `int(d)` for a text of digits; more than 4300 digits raise `ValueError` (Python 3.11, 3.10.7 and later).
Used at /repo/teleprox/client.py:190. -/
def intOfDigits (d : List Char) : Except Exc Nat :=
  if d.length > 4300 then .error .valueError
  else .ok (d.foldl (fun n c => 10 * n + (uniDigit c).getD 0) 0)

/-- `RPCClient.check_address`; /repo/teleprox/client.py:173-191. -/
def checkAddress (net : List Char → Nat → Connect) (address : List Char) : Except Exc (Option String) :=
  match matchTcp address with
  | none => .ok none
  | some (host, port) =>
    match intOfDigits port with
    | .error e => .error e
    | .ok port =>
      match checkTcpPort net host port with
      | .error e => .error e
      | .ok s => .ok (some s)

/-- The check at the beginning of the connection in `RPCClient.__init__`; /repo/teleprox/client.py:128-131. -/
def connectCheck (net : List Char → Nat → Connect) (address : List Char) : Except Exc Unit :=
  match checkAddress net address with
  | .error e => .error e
  | .ok (some "closed") => .error .connectionRefused
  | .ok _ => .ok ()

end Verif
