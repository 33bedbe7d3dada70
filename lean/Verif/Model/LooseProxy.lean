import Verif.Model.ReceivedOptions
import Verif.Model.Formats
import Verif.Model.Server
/-!
# Proxies with fields of any type

A program of another make may send the dict of a proxy whose fields are not what `__getstate__` writes. `decode` builds a proxy of whatever they are (/repo/teleprox/serializer.py:185-190);
if the address is that of the reader's server, the proxy is resolved at once (191-192), and the fields meet the table of the server. `proxyOfDict` refuses such fields; here they are kept.
-/
namespace Verif

/-- An `ObjectProxy` with fields as they came; /repo/teleprox/proxy.py:91-103. -/
structure LooseProxy where
  addr : Val
  oid : Val
  rid : Val
  typeStr : Val
  attrs : List Val

/-- The address as it is kept: texts are encoded; /repo/teleprox/proxy.py:92-93. -/
def keptAddr : Val → Val
  | .str s => .bytes (utf8Bytes s)
  | v => v

/-- `ObjectProxy(**dct)`; /repo/teleprox/serializer.py:186-188, /repo/teleprox/proxy.py:83-114, 225-228. -/
def looseProxyOf (d : List (Val × Val)) : Except Exc LooseProxy :=
  match proxyAttrs d with
  | none => .error .typeError
  | some attrs =>
    match keyNames d with
    | none => .error .typeError
    | some ks =>
      if "self" ∈ ks then .error .typeError
      else
        match lookupStr d "rpc_addr", lookupStr d "obj_id", lookupStr d "ref_id" with
        | some a, some o, some r =>
          if ¬ ks.all (fun k => k ∈ proxyParams || k ∈ optionNames) then .error .keyError
          else .ok ⟨keptAddr a, o, r, (lookupStr d "type_str").getD (.str ""), attrs⟩
        | _, _, _ => .error .typeError

/-- `self._proxy_options[k] is True` of the proxy made from these entries, for an option that is True if nobody gives it: the reader's option counts before the one in the message.
/repo/teleprox/serializer.py:188-190, /repo/teleprox/proxy.py:104-113, 242, 284. -/
def looseOption (popts : Dict String Val) (d : List (Val × Val)) (k : String) : Bool :=
  match popts.get? k with
  | some v => v.isTrue
  | none =>
    match lookupStr d k with
    | some v => v.isTrue
    | none => true

/-- The number that a value equals as key of `_proxy_refs`, or the exception of hashing it; /repo/teleprox/server.py:221. -/
def idKey (H : Heap) : Val → Except Exc (Option Nat)
  | .int i => .ok (if 0 ≤ i then some i.toNat else none)
  | .bool b => .ok (some b.toNat)
  | .none => .ok none
  | .str _ => .ok none
  | .bytes _ => .ok none
  | .list _ => .error .typeError
  | .dict _ => .error .typeError
  | v => H.numKey v

/-- `'%d' % v`, only whether it raises; `f` says it for values that may be numbers. /repo/teleprox/proxy.py:246. -/
def percentD (f : Val → Except Exc Unit) : Val → Except Exc Unit
  | .int _ => .ok ()
  | .bool _ => .ok ()
  | .none => .error .typeError
  | .str _ => .error .typeError
  | .bytes _ => .error .typeError
  | v => f v

/-- `for attr in attrs: obj = getattr(obj, attr)`, TypeError for a name that is no text; /repo/teleprox/server.py:225-226. -/
def looseGetattrs (ga : GetAttr) : Val → List Val → Except Exc Val
  | v, [] => .ok v
  | v, .str a :: as =>
    match ga v a with
    | .ok v' => looseGetattrs ga v' as
    | .error e => .error e
  | _, _ :: _ => .error .typeError

/-- What reading the dict of a proxy comes to. /repo/teleprox/serializer.py:185-194. -/
inductive LooseRead where
  | value (v : Val)
  | proxy (q : LooseProxy)
  /-- a request to the reader's own server for the object with this id and these attributes, which is called if `call`; what follows depends on the answer -/
  | asks (oid : Val) (attrs : List Val) (call : Bool)
  | raises (e : Exc)

/-- The id is not in the table: the message of the KeyError shows `proxy.obj_id`, which is no field but an attribute of the remote object; /repo/teleprox/server.py:222-224 with
/repo/teleprox/proxy.py:241-247, 283-287. -/
def looseUnknown (f : Val → Except Exc Unit) (popts : Dict String Val) (d : List (Val × Val)) (q : LooseProxy) : LooseRead :=
  if ¬ looseOption popts d "defer_getattr" then .asks q.oid (q.attrs ++ [.str "obj_id"]) false
  else if ¬ looseOption popts d "safe_print" then .asks q.oid (q.attrs ++ [.str "obj_id", .str "__repr__"]) true
  else
    match asStrs (q.typeStr :: q.attrs) with
    | none => .raises .typeError
    | some _ =>
      match percentD f q.oid with
      | .error e => .raises e
      | .ok () => .raises .keyError

/-- The proxy branch of `decode` where `own` is the address and the table of the reader's server; /repo/teleprox/serializer.py:185-194, /repo/teleprox/server.py:216-228. Simplification: an
address that is neither text nor bytes equals no address (a proxy as address is asked, see `Verif.Model.Asks`), and the reader's own options are known ones. -/
def decodeLoose (H : Heap) (f : Val → Except Exc Unit) (popts : Dict String Val) (own : Option (String × Refs)) (d : List (Val × Val)) : LooseRead :=
  match looseProxyOf d with
  | .error e => .raises e
  | .ok q =>
    match own, q.addr with
    | some (addr, t), .bytes b =>
      if b = utf8Bytes addr then
        match idKey H q.oid with
        | .error e => .raises e
        | .ok none => looseUnknown f popts d q
        | .ok (some n) =>
          match t.lookup n with
          | .error _ => looseUnknown f popts d q
          | .ok o =>
            match looseGetattrs H.ga (H.view o) q.attrs with
            | .ok v => .value v
            | .error e => .raises e
      else .proxy q
    | _, _ => .proxy q

/-- `__getstate__` of such a proxy; /repo/teleprox/proxy.py:121-137. -/
def LooseProxy.getstate (q : LooseProxy) : Except Exc (List (Val × Val)) :=
  match (match q.addr with
    | .bytes b => (match utf8Text b with | some s => .ok (.str s) | none => .error .unicodeError)
    | v => .ok v : Except Exc Val) with
  | .error e => .error e
  | .ok a => .ok [(.str "rpc_addr", a), (.str "obj_id", q.oid), (.str "ref_id", q.rid), (.str "type_str", q.typeStr), (.str "attributes", .tuple q.attrs)]

end Verif
