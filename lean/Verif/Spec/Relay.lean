import Verif.Spec.Transport
/-!
# Messages handed on from process to process

Specification vocabulary for C120. A message travels over a list of hops; each hop is one `dumps` in one process
(/repo/teleprox/serializer.py:239-244) and one `loads` in the next (/repo/teleprox/serializer.py:246-259).
-/
namespace Verif

/-- One hop: the process that sends, its table of objects handed out, and the process that receives. Ends of
/repo/teleprox/serializer.py:239-259. -/
structure Hop where
  sender : SendEnv
  table : Refs
  receiver : RecvEnv

/-- Send `v` over the first hop, what arrives over the second, and so on. Gives the tables the senders are left
with and what the last receiver gets. Repeated use of /repo/teleprox/serializer.py:239-259. -/
def relay : List Hop → Val → List Refs × Except Exc Val
  | [], v => ([], .ok v)
  | h :: hs, v =>
    match msgpackDumps h.sender h.table v with
    | (t, .error e) => ([t], .error e)
    | (t, .ok w) =>
      match msgpackLoads h.receiver w with
      | .error e => ([t], .error e)
      | .ok v' => (t :: (relay hs v').1, (relay hs v').2)

/-- A proper hop: same libraries at both ends, default types are serialized, the receiver is not the sender's
own server, and the sender's table is one its server can have. -/
structure Hop.Proper (L : Lib) (h : Hop) : Prop where
  link : Link L h.sender h.receiver
  table : ∃ hist, Reach h.sender.idOf hist h.table ∧ Alive h.sender hist

/-- A hop on which a message of `A` is only passed on: the sender serializes at least the types `A` does, the
receiver is not `A`'s server, and is not the server of any proxy in the message. -/
structure Hop.PassesOn (A : SendEnv) (v : Val) (h : Hop) : Prop where
  types : ∀ ty ∈ A.tys, ty ∈ h.sender.tys
  notOwner : NotOwner A h.receiver
  proxies : ProxiesIn (fun p => ∀ addr unwrap, h.receiver.server = some (addr, unwrap) → p.addr ≠ addr) v

/-- The process that gets the message in the end. -/
def lastReceiver (h : Hop) (hs : List Hop) : RecvEnv := ((h :: hs).getLast (by simp)).receiver

end Verif
