import Verif.Spec.System
/-!
# A system left alone
-/
namespace Verif

/-- Nobody asks to close the server, clients have UTF-8 names, and the texts of exceptions have no lone surrogates: nothing
stops the server (C09). `u` decodes names. -/
structure UndisturbedSys (u : Bytes → Option String) (es : List SEv) : Prop where
  utf8 : ∀ e ∈ es, ∀ H, e.heap? = some H → H.utf8 = u
  text : ∀ e ∈ es, ∀ H, e.heap? = some H → H.tbBad = false
  names : ∀ n E t a o rt sy, .request n E t a o rt sy ∈ es → u n ≠ none
  noClose : ∀ n E t a o rt sy, .request n E t a o rt sy ∈ es → a ≠ "close"

/-- The event moves something: the server takes a message, user code returns, a client takes a message. -/
def Sys.moves (s : Sys) : SEv → Bool
  | .serve n _ => !(s.up n).isEmpty
  | .ret _ _ => !s.srv.stack.isEmpty
  | .deliver n _ _ => (s.cli n).sockOpen && !(s.down n).isEmpty
  | _ => false

/-- How many events of a run move something. -/
def Sys.countMoves (K : Codec) (s : Sys) : List SEv → Nat
  | [] => 0
  | e :: es => (s.moves e).toNat + (s.step K e).countMoves K es

/-- How many events of a run are requests. -/
def countRequests : List SEv → Nat
  | [] => 0
  | .request .. :: es => countRequests es + 1
  | _ :: es => countRequests es

end Verif
