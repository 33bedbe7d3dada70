import Verif.Model.LogRemote
/-!
# Many log senders and one log server

Every process has its own LogSender, connected to the one LogServer of the process that started the family. ZeroMQ carries the messages of each sender in
order and takes them from the senders in any order.
-/
namespace Verif

/-- The messages among these that go to the address `a`; /repo/teleprox/log/remote.py:183. -/
def wiresTo (a : Bytes) (os : List SenderOut) : List Wire := os.filterMap fun o => match o with | .sent b _ w => if b = a then some w else none | _ => none

/-- The sender of every process, what of its messages is on its way to the server, the server and its address. Simplification: nothing on its way is
lost, and messages to other addresses are nobody's concern. The messages of one process arrive in the order sent; that is so as long as it keeps to one
socket, and the theorems say nothing about the order of the records of a process that connects anew. /repo/teleprox/log/remote.py:139-158 and 237-248. -/
structure LogNetSt where
  addr : Bytes
  snd : Nat → SenderSt
  chan : Nat → List Wire := fun _ => []
  srv : LogSrvSt

/-- Atomic steps: of a sender (its thread or those that use it), of ZeroMQ, of the server. /repo/teleprox/log/remote.py:160-203 and 250-266. -/
inductive LogNetEv where
  | at (i : Nat) (e : SenderEv)
  /-- the next message of the process `i` reaches the PULL socket of the server -/
  | deliver (i : Nat)
  /-- the thread of the server goes once through its loop -/
  | serve
  | setLevels (l : List Int)
  | stop

/-- What can be observed. /repo/teleprox/log/remote.py:160-203 and 250-266. -/
inductive LogNetOut where
  | sender (i : Nat) (o : SenderOut)
  | arrived (i : Nat) (w : Wire)
  | server (o : LogSrvOut)

/-- The server does a step; /repo/teleprox/log/remote.py:250-266. -/
def LogNetSt.serverStep (lt : Nat → Int → Bool) (n : LogNetSt) (e : LogSrvEv) : LogNetSt × List LogNetOut :=
  ({ n with srv := (n.srv.step lt e).1 }, (n.srv.step lt e).2.map .server)

/-- One atomic step; /repo/teleprox/log/remote.py:160-203 and 250-266. Simplification: all the processes format their messages and write their JSON the same
way. -/
def LogNetSt.step (L : Lib) (fmt : Val → Val → Except Exc Val) (lt : Nat → Int → Bool) (n : LogNetSt) : LogNetEv → LogNetSt × List LogNetOut
  | .at i e =>
    let (s, os) := (n.snd i).step L fmt e
    ({ n with snd := fun j => if j = i then s else n.snd j, chan := fun j => if j = i then n.chan j ++ wiresTo n.addr os else n.chan j }, os.map (.sender i))
  | .deliver i =>
    match n.chan i with
    | [] => (n, [])
    | w :: r =>
      let (m, os) := { n with chan := fun j => if j = i then r else n.chan j }.serverStep lt (.arrive (some w))
      (m, .arrived i w :: os)
  | .serve => n.serverStep lt .go
  | .setLevels l => n.serverStep lt (.setLevels l)
  | .stop => n.serverStep lt .stop

/-- A history. Any interleaving of /repo/teleprox/log/remote.py:160-203 in every process with 250-266. -/
def LogNetSt.run (L : Lib) (fmt : Val → Val → Except Exc Val) (lt : Nat → Int → Bool) (n : LogNetSt) : List LogNetEv → LogNetSt × List LogNetOut
  | [] => (n, [])
  | e :: es =>
    let (n₁, o₁) := n.step L fmt lt e
    let (n₂, o₂) := n₁.run L fmt lt es
    (n₂, o₁ ++ o₂)

/-- A server at `a` and a new sender connected to it in every process, the process `i` having the names `N i`. /repo/teleprox/log/remote.py:139-158 and
237-248. -/
def LogNetSt.init (N : Nat → LogNames) (a : Bytes) (filter : Bool) (levels : List Int) : LogNetSt :=
  { addr := a, snd := fun i => SenderSt.init (N i) a, srv := { filter, levels } }

end Verif
