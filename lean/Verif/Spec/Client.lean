import Verif.Model.Client
import Verif.Spec.Server
/-!
# What may be observed of a client
-/
namespace Verif

/-- The dict read from a message. -/
def Cli.reads (c : Cli) (P : CliEnv) (w : Wire) (d : List (Val × Val)) : Prop := c.ser.loads P.recv w = .ok (.dict d)

/-- The message is a reply to request `k`. -/
def IsReply (P : CliEnv) (d : List (Val × Val)) (k : Nat) : Prop :=
  lookupStr d "action" = some (.str "return") ∧ ∃ v, lookupStr d "req_id" = some v ∧ reqKey P.other v = .ok (some (k : Int))

/-- What a reply says: a value, or a remote exception. -/
def Says (P : CliEnv) (d : List (Val × Val)) (f : Fut) : Prop :=
  match f with
  | .value v => lookupStr d "error" = some .none ∧ lookupStr d "rval" = some v
  | .remote a b => ∃ err, lookupStr d "error" = some err ∧ (∀ h : err = .none, False) ∧ unpack2 P.unpack err = .ok (a, b)
  | _ => False

/-- The message is a disconnect message. -/
def IsDisconnect (d : List (Val × Val)) : Prop := lookupStr d "action" = some (.str "disconnect")

/-- The message is the reply `True` to a close request of this client that is still pending. -/
def ClosesOwn (P : CliEnv) (c : Cli) (d : List (Val × Val)) : Prop :=
  ∃ k, IsReply P d k ∧ Says P d (.value (.bool true)) ∧ c.table.get? k = some true

/-- A message a server sends: a disconnect message, or a reply with an int id, an error that is None or a pair, and a
result. -/
def ServerMsg (d : List (Val × Val)) : Prop :=
  IsDisconnect d ∨ (lookupStr d "action" = some (.str "return") ∧ (∃ i, lookupStr d "req_id" = some (.int i)) ∧
    (∃ v, lookupStr d "rval" = some v) ∧
    (lookupStr d "error" = some .none ∨ ∃ a b, lookupStr d "error" = some (.tuple [a, b]) ∨ lookupStr d "error" = some (.list [a, b])))

/-- every message read in the run that can be read at all is one a server sends -/
def ServerMsgs (c : Cli) (es : List CEv) : Prop :=
  ∀ P w v, .recv P w ∈ es → c.ser.loads P.recv w = .ok v → ∃ d, v = .dict d ∧ ServerMsg d

/-- The messages transmitted in a run with the sync mode they were sent in, oldest first. -/
def Cli.log (K : Codec) (c : Cli) : List CEv → List (String × List Bytes)
  | [] => []
  | e :: es =>
    (match e with
      | .send E t a o rt sy => match (c.send K E t a o rt sy).2.2.1 with
        | some m => [(sy, m)]
        | none => []
      | _ => []) ++ (c.step K e).1.log K es

end Verif
