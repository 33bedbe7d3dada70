import Verif.Model.LogHandler
/-!
# Vocabulary for C53, C54 and C73
-/
namespace Verif

/-- The records logged, in order. -/
def emittedOf (es : List HandlerEv) : List LogRec := es.filterMap fun e => match e with | .emit r => some r | _ => none

/-- The record an observation is about. -/
def LogOut.record : LogOut → LogRec
  | .wrote r _ => r
  | .failed r _ => r

/-- The records written to the stream, in order. -/
def writtenOf (os : List LogOut) : List LogRec := os.filterMap fun o => match o with | .wrote r _ => some r | _ => none

/-- Every record is logged at most `delay` after its creation (by the clock of the handler, which shows `now` at first). -/
def InTime (delay : Int) : Int → List HandlerEv → Prop
  | _, [] => True
  | now, .tick d :: es => InTime delay (now + d) es
  | now, .emit r :: es => now ≤ r.created + delay ∧ InTime delay now es
  | now, _ :: es => InTime delay now es

/-- Records nobody has written yet: those in the list, those the polling thread holds, those calls of `flush_records` hold. -/
def HandlerSt.pending (s : HandlerSt) : List LogRec :=
  s.records ++ (match s.poll with | .writing l => l | _ => []) ++ s.flushes.flatten

/-- A record can be written: its message can be formatted and, with colours, its level is one the colour table knows. -/
def Writable (E : LogEnv) (r : LogRec) : Prop :=
  (∃ m, E.text r = .ok m) ∧ (E.colorama = true → 0 ≤ r.level ∧ r.level < 60)

end Verif
