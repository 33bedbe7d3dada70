import Verif.Model.Serializer
/-!
# JSON with Python's limit on the digits of an integer

`Verif.Model.Serializer` reads and writes integers of any size. Python 3.11 (and 3.10.7, 3.9.14, ... ) refuses to convert between an integer and a text of more than 4300 digits
(`sys.set_int_max_str_digits`), so `json.dumps` and `json.loads` raise `ValueError` for such an integer. The definitions here are those of `Verif.Model.Serializer` with such a limit; `lim`
is the number of digits allowed in this process.
-/
namespace Verif

/-- An integer that has more than `lim` digits. Used by `json.dumps` and `json.loads` at /repo/teleprox/serializer.py:286, 291. -/
def tooLong (lim : Nat) (i : Int) : Bool := 10 ^ lim ≤ i.natAbs

/-- Python's default limit. Limit of /repo/teleprox/serializer.py:286, 291. -/
def strDigits : Nat := 4300

/-- A JSON object key, as `jkey`; an integer is converted to text. Part of /repo/teleprox/serializer.py:286. -/
def jkeyLim (lim : Nat) (L : Lib) (k : Val) : Except Exc String :=
  match k.core with
  | .int i => if tooLong lim i then .error .valueError else .ok (toString i)
  | _ => jkey L k

/-- A JSON object entry, as `jpair`. Part of /repo/teleprox/serializer.py:286. -/
def jpairLim (lim : Nat) (L : Lib) (f : Refs → Val → Refs × Except Exc Wire) (t : Refs) (kv : Val × Val) :
    Refs × Except Exc (Wire × Wire) :=
  match jkeyLim lim L kv.1 with
  | .error e => (t, .error e)
  | .ok k =>
    match f t kv.2 with
    | (t1, .error e) => (t1, .error e)
    | (t1, .ok v) => (t1, .ok (.str k, v))

/-- `json.dumps(obj, cls=EnhancedJSONEncoder)`, as `jpack`; /repo/teleprox/serializer.py:274-286. -/
def jpackLim (lim : Nat) (E : SendEnv) : Nat → Refs → Val → Refs × Except Exc Wire
  | 0, t, _ => (t, .error (.other "RecursionError"))
  | n + 1, t, v =>
    let viaMap := fun (t : Refs) (d : List (Val × Val)) =>
      match mapS (jpairLim lim E.lib (jpackLim lim E n)) t d with
      | (t', .ok m) => (t', Except.ok (Wire.map m))
      | (t', .error e) => (t', .error e)
    let viaList := fun (l : List Val) =>
      match mapS (jpackLim lim E n) t l with
      | (t', .ok ws) => (t', Except.ok (Wire.arr ws))
      | (t', .error e) => (t', .error e)
    let viaDefault := fun (_ : Unit) =>
      match jencode E t v with
      | (t', .ok d) => viaMap t' d
      | (t', .error e) => (t', .error e)
    match v.core with
    | .none => (t, .ok .nil)
    | .bool b => (t, .ok (.bool b))
    | .int i => if tooLong lim i then (t, .error .valueError) else (t, .ok (.int i))
    | .float f => (t, .ok (.float f))
    | .str s => (t, .ok (.str s))
    | .list l => viaList l
    | .tuple l => viaList l
    | .dict d => viaMap t d
    | .npScalar s =>
      match s.dtype.kind, s.dtype.itemsize, s.val with
      | .floating, 8, .float f => (t, .ok (.float f))
      | _, _, _ => viaDefault ()
    | _ => viaDefault ()

mutual
/-- `json.loads(msg, object_hook=self.decode)`, as `junpack`; /repo/teleprox/serializer.py:291. -/
def junpackLim (lim : Nat) (R : RecvEnv) : Wire → Except Exc Val
  | .nil => .ok .none
  | .bool b => .ok (.bool b)
  | .int i => if tooLong lim i then .error .valueError else .ok (.int i)
  | .float f => .ok (.float f)
  | .str s => .ok (.str s)
  | .bin _ => .error .valueError
  | .arr l =>
    match junpackLimL lim R l with
    | .ok vs => .ok (.list vs)
    | .error e => .error e
  | .map m =>
    match junpackLimM lim R m with
    | .ok d => jdecode R (dictOf d)
    | .error e => .error e

/-- Items of an array. Part of /repo/teleprox/serializer.py:291. -/
def junpackLimL (lim : Nat) (R : RecvEnv) : List Wire → Except Exc (List Val)
  | [] => .ok []
  | w :: ws =>
    match junpackLim lim R w with
    | .error e => .error e
    | .ok v =>
      match junpackLimL lim R ws with
      | .ok vs => .ok (v :: vs)
      | .error e => .error e

/-- Entries of an object. Part of /repo/teleprox/serializer.py:291. -/
def junpackLimM (lim : Nat) (R : RecvEnv) : List (Wire × Wire) → Except Exc (List (Val × Val))
  | [] => .ok []
  | (.str k, w) :: r =>
    match junpackLim lim R w with
    | .error e => .error e
    | .ok v =>
      match junpackLimM lim R r with
      | .ok d => .ok ((.str k, v) :: d)
      | .error e => .error e
  | (_, _) :: _ => .error .valueError
end

/-- `JsonSerializer.dumps`, as `jsonDumps`; /repo/teleprox/serializer.py:283-286. -/
def jsonDumpsLim (lim : Nat) (E : SendEnv) (t : Refs) (v : Val) : Refs × Except Exc Wire := jpackLim lim E jsonDepth t v

/-- `JsonSerializer.loads`, as `jsonLoads`; /repo/teleprox/serializer.py:288-291. -/
def jsonLoadsLim (lim : Nat) (R : RecvEnv) (w : Wire) : Except Exc Val := junpackLim lim R w

end Verif
