import Verif.Model.Lifetime
import Verif.Spec.Refs
/-!
# Vocabulary for C48
-/
namespace Verif

/-- `Lives idOf ok s h`: a program, all of whose steps satisfy `ok`, may lead to the situation `s` with the history `h` of the table. -/
inductive Lives (idOf : Obj → Nat) (ok : LifeSt → LifeEv → Prop) : LifeSt → RefHistory → Prop where
  | init : Lives idOf ok LifeSt.init []
  | step {s h} (e : LifeEv) : Lives idOf ok s h → ok s e → (∀ o, e = .obtain o → IdsDistinct idOf h (.get o [])) →
      (∀ op, e = .other op → IdsDistinct idOf h op) →
      Lives idOf ok (s.step idOf e).1 (h ++ (s.step idOf e).2)

/-- Proxy `i` lives and is obtained from the server or derived, in some steps, from such a proxy. -/
inductive Rooted (s : LifeSt) : Nat → Prop where
  | obtained {i p} : s.live.get? i = some p → p.origin = .obtained → Rooted s i
  | derived {i p j} : s.live.get? i = some p → p.origin = .derived j → Rooted s j → Rooted s i

/-- The program is careful: of the proxies with `auto_delete` only such are collected as were handed out by the server; nobody deletes
references by hand; others delete only references that are not ours. -/
def Careful (s : LifeSt) : LifeEv → Prop
  | .collect i => ∀ p, s.live.get? i = some p → p.auto = true → p.origin = .obtained
  | .delete _ => False
  | .other (.delete oid rid) => ∀ i p, s.live.get? i = some p → ¬ (p.oid = oid ∧ p.rid = rid)
  | _ => True

end Verif
