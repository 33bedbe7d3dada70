import Verif.Model.System
/-!
# Queues of limited length

The ROUTER socket of the server is made without options for the length of its queues (/repo/teleprox/server.py:137, only `linger` is
set), as is the DEALER socket of the client (/repo/teleprox/client.py:134-149). ZeroMQ then keeps 1000 messages on each side; a ROUTER
socket that has a message for a peer whose queue is full drops this message without an error. (A DEALER socket waits instead, which only
delays requests.)
-/
namespace Verif

/-- Of the messages for each client the first `cap` are kept, those that come when the queue is full are dropped. `cap` is the number of messages
the queues on both sides and the network between them hold. The sockets of /repo/teleprox/server.py:137, 343, 409. -/
def Sys.capped (cap : Nat) (s : Sys) : Sys := { s with down := fun n => (s.down n).take cap }

/-- One step with limited queues. /repo/teleprox/client.py:227-319, 502-561 and /repo/teleprox/server.py:238-415. -/
def Sys.stepCap (K : Codec) (cap : Nat) (s : Sys) (e : SEv) : Sys := (s.step K e).capped cap

/-- A run with limited queues. /repo/teleprox/client.py:227-319, 502-561 and /repo/teleprox/server.py:238-415. -/
def Sys.runCap (K : Codec) (cap : Nat) (s : Sys) : List SEv → Sys
  | [] => s
  | e :: es => (s.stepCap K cap e).runCap K cap es

end Verif
