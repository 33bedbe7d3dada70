import Verif.Model.LogAll
import Verif.Spec.LogNet
import Verif.Spec.LogHandler
/-!
# Vocabulary for C143
-/
namespace Verif

/-- What happens to senders, messages and the server. -/
def logNetEvs (es : List LogAllEv) : List LogNetEv := es.filterMap fun e => match e with | .net e => some e | _ => none

/-- What can be observed of these. -/
def logNetOuts (os : List LogAllOut) : List LogNetOut := os.filterMap fun o => match o with | .net o => some o | _ => none

/-- What the handler does: lines, and records it could not format. -/
def hdlOuts (os : List LogAllOut) : List LogOut := os.filterMap fun o => match o with | .hdl o => some o | _ => none

/-- What happens to the handler in its own process. -/
def hdlEvs (es : List LogAllEv) : List HandlerEv := es.filterMap fun e => match e with | .hdl e => some e | _ => none

/-- The records the process with the server logged itself. -/
def ownRecords (es : List LogAllEv) : List LogRec := emittedOf (hdlEvs es)

/-- Records of other processes as the handler sees them, counted from `k`. -/
def seenFrom (ms : Nat → Int) : Nat → List Fields → List LogRec
  | _, [] => []
  | k, d :: ds => recordSeen ms k d :: seenFrom ms (k + 1) ds

/-- All that happens to the handler: its own events, and the records the server passes on. -/
def handlerSees (L : Lib) (fmt : Val → Val → Except Exc Val) (lt : Nat → Int → Bool) (E : LogEnv) (ms : Nat → Int) : LogAll → List LogAllEv → List HandlerEv
  | _, [] => []
  | a, e :: es =>
    (match e with
      | .hdl e => [e]
      | .net e => (seenFrom ms a.next (passedOf (ofServer (a.net.step L fmt lt e).2))).map .emit) ++
    handlerSees L fmt lt E ms (a.step L fmt lt E ms e).1 es

/-- Nobody logs, changes, stops or flushes anything: threads go on, messages arrive, time passes. -/
def LogAllEv.goesOn : LogAllEv → Prop
  | .net e => e.goesOn
  | .hdl .poll | .hdl (.tick _) => True
  | _ => False

end Verif
