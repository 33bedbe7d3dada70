import Verif.Model.Value
/-!
# Unwrapping a proxy on its owner
-/
namespace Verif

/-- `getattr` of a value of the server process: result or exception; an oracle, since attribute access runs
arbitrary code. /repo/teleprox/server.py:226. -/
abbrev GetAttr := Val → String → Except Exc Val

/-- `for attr in attrs: obj = getattr(obj, attr)`; /repo/teleprox/server.py:225-226. -/
def getattrs (ga : GetAttr) : Val → List String → Except Exc Val
  | v, [] => .ok v
  | v, a :: as =>
    match ga v a with
    | .ok v' => getattrs ga v' as
    | .error e => .error e

/-- `unwrap_proxy`; /repo/teleprox/server.py:216-228. `view o` is the object with identity `o` as a value. The
reference id is not looked at. -/
def Refs.unwrap (view : Obj → Val) (ga : GetAttr) (t : Refs) (p : Proxy) : Except Exc Val :=
  match t.lookup p.oid with
  | .ok o => getattrs ga (view o) p.attrs
  | .error e => .error e

end Verif
