import Verif.Model.LogHops
import Verif.Spec.LogRemote
/-!
# Vocabulary for C141 and C142
-/
namespace Verif

/-- The first `n` processes after `i` along the senders, up to the first whose server does not take records of the level `l`. -/
def route (P : Nat → LogProc) (l : Int) : Nat → Nat → List Nat
  | 0, _ => []
  | n + 1, i =>
    match (P i).next with
    | none => []
    | some j => if (P j).filter = true ∧ l < effectiveLevel (P j).levels then [] else j :: route P l n j

/-- The names added to a record on its way. -/
def isLabel (k : String) : Prop := k = "process_name" ∨ k = "thread_name" ∨ k = "host_name"

/-- `d` says what `r` said: the message formatted once, no arguments, all other attributes but the names added on the way as they were. -/
structure SaysTheSame (fmt : Val → Val → Except Exc Val) (r d : Fields) : Prop where
  same : ∀ k v, k ≠ "args" → k ≠ "msg" → ¬ isLabel k → r.get? k = some v → d.get? k = some v
  args : d.get? "args" = some (.tuple [])
  plain : ∀ v, r.get? "args" = some (.tuple []) → r.get? "msg" = some v → d.get? "msg" = some v
  msg : ∀ args n msg m, r.get? "args" = some args → args.pyLen = .ok (n + 1) → r.get? "msg" = some msg → fmt msg args = .ok m → d.get? "msg" = some m

end Verif
