import Verif.Model.Proxy
/-!
# The options of proxies read from a message

`decode` gives every entry of a proxy's dict to `ObjectProxy`, whose further keyword arguments are options.
-/
namespace Verif

/-- The keyword arguments of `ObjectProxy(**dct)` that are no parameters of their own; /repo/teleprox/proxy.py:83,
/repo/teleprox/serializer.py:188. -/
def optionArgs : List (Val × Val) → Dict String Val
  | [] => []
  | (.str k, v) :: r => if k ∈ proxyParams then optionArgs r else (k, v) :: optionArgs r
  | _ :: r => optionArgs r

/-- The proxy object made from decoded entries: `ObjectProxy(**dct)`, then `_set_proxy_options(**self._proxy_opts)` unless
these are None; /repo/teleprox/serializer.py:186-190. Clients give their `default_proxy_options`
(/repo/teleprox/client.py:525), servers an empty dict (/repo/teleprox/server.py:290). -/
def PObj.ofDict (popts : Option (Dict String Val)) (d : List (Val × Val)) : Except Exc PObj :=
  match proxyOfDict d with
  | .error e => .error e
  | .ok p =>
    match PObj.new p (optionArgs d) with
    | .error e => .error e
    | .ok q =>
      match popts with
      | none => .ok q
      | some o =>
        match q.setOptions o with
        | (q, .ok ()) => .ok q
        | (_, .error e) => .error e

/-- The proxy object one call of `decode` makes, if the dict is that of a proxy; /repo/teleprox/serializer.py:156-190. -/
def decodeMakes (popts : Option (Dict String Val)) (d : List (Val × Val)) : Option (Except Exc PObj) :=
  match (lookupStr d encodeKey).bind Val.text? with
  | some "proxy" => some (PObj.ofDict popts (removeStr d encodeKey))
  | _ => none

/-- The request made when a proxy object is collected; /repo/teleprox/proxy.py:258-269. -/
def PObj.collected (p : PObj) : List Request := if p.on "auto_delete" then [deleteReq p.proxy] else []

end Verif
