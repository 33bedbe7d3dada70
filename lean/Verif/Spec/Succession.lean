import Verif.Model.Succession
/-!
# Servers that follow one another at one address: what is claimed
-/
namespace Verif

/-- Objects alive together have different `id()`: an object passed to `get_proxy` and those the server holds. -/
def SuccSt.IdsOk (idOf : Nat → Obj → Nat) (s : SuccSt) : List SuccEv → Prop
  | [] => True
  | e :: es =>
    (e = .carry → ∀ n o q, s.queue = (n, .make o) :: q → ∀ oid o' r, s.table.refs.get? oid = some (o', r) → idOf s.gen o' = idOf s.gen o → o' = o) ∧
      (s.step idOf e).1.IdsOk idOf es

/-- What a server did for client `n`. -/
def SuccOut.doneFor (n : Nat) : SuccOut → Prop
  | .refused _ => False
  | .made m .. => m = n
  | .reached m .. => m = n
  | .released m .. => m = n
  | .raised m .. => m = n

/-- What server `g` did for client `n` when asked `a`. -/
def SuccOut.answers (n g : Nat) (a : SuccAsk) : SuccOut → Prop
  | .refused _ => False
  | .made m g' _ _ o => m = n ∧ g' = g ∧ a = .make o
  | .reached m g' g₀ oid _ => m = n ∧ g' = g ∧ a = .use g₀ oid
  | .released m g' g₀ oid rid => m = n ∧ g' = g ∧ a = .delete g₀ oid rid
  | .raised m g' a' _ => m = n ∧ g' = g ∧ a' = a

/-- Client `n` asks for these objects, one after the other. -/
def asksFor (n : Nat) (os : List Obj) : List SuccEv := os.flatMap fun o => [.send n (.make o), .carry]

end Verif
