import Verif.Model.LogNet
import Verif.Spec.LogRemote
/-!
# Vocabulary for C139 and C140
-/
namespace Verif

/-- What happens in the process `i`. -/
def inProc (i : Nat) (es : List LogNetEv) : List SenderEv := es.filterMap fun e => match e with | .at j e => if j = i then some e else none | _ => none

/-- What can be observed of the server. -/
def ofServer (os : List LogNetOut) : List LogSrvOut := os.filterMap fun o => match o with | .server o => some o | _ => none

/-- The messages that arrived, each with the process it came from. -/
def arrivals (os : List LogNetOut) : List (Nat × Wire) := os.filterMap fun o => match o with | .arrived i w => some (i, w) | _ => none

/-- The items that came from the process `i`. -/
def fromProc {α : Type} (i : Nat) (l : List (Nat × α)) : List α := l.filterMap fun x => if x.1 = i then some x.2 else none

/-- A record with attributes of distinct names and a number as its level. (The logging module compares the level of a record with a number before it gives it
to a handler.) Anything may be in its other attributes. -/
def Levelled (r : Fields) : Prop :=
  r.WF ∧ ((∃ i, r.get? "levelno" = some (.int i)) ∨ (∃ b, r.get? "levelno" = some (.bool b)) ∨ ∃ f, r.get? "levelno" = some (.float f))

/-- Nobody logs, changes or stops anything: threads go on and messages arrive. -/
def LogNetEv.goesOn : LogNetEv → Prop
  | .at _ .go | .deliver _ | .serve => True
  | _ => False

end Verif
