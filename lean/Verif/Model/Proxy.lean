import Verif.Model.Client
/-!
# Object proxies on the side that uses them

/repo/teleprox/proxy.py. `Proxy` (`Verif.Model.Value`) is what is sent; `PObj` adds the options. The cached server and hash
of a proxy are not modelled: they only save work. The cached client is in `Verif.Model.ProxyClient`. Lifetimes of proxies are in `Verif.Model.Lifetime`.
-/
namespace Verif

/-- An `ObjectProxy` with its `_proxy_options`. /repo/teleprox/proxy.py:91-114. -/
structure PObj where
  proxy : Proxy
  opts : Dict String Val

/-- The options of a new proxy; /repo/teleprox/proxy.py:104-113. Simplification: the list of types `no_proxy_types`, which nothing looks at,
is left empty. -/
def defaultOptions : Dict String Val :=
  [("sync", .str "sync"), ("timeout", .int 10), ("return_type", .str "auto"), ("defer_getattr", .bool true),
   ("no_proxy_types", .list []), ("auto_delete", .bool false), ("safe_print", .bool true)]

/-- The value `True`, and nothing else (`x is True`). Used at /repo/teleprox/proxy.py:242, 268, 284, 369. -/
def Val.isTrue : Val → Bool
  | .bool true => true
  | _ => false

/-- `self._proxy_options[k] is True` (the keys asked for are always there). /repo/teleprox/proxy.py:242, 268, 284, 369. -/
def PObj.on (p : PObj) (k : String) : Bool :=
  match p.opts.get? k with
  | some v => v.isTrue
  | none => false

/-- The loop of `_set_proxy_options`; /repo/teleprox/proxy.py:225-227. -/
def checkOptions (opts : Dict String Val) : List (String × Val) → Except Exc Unit
  | [] => .ok ()
  | (k, _) :: r => if opts.has k then checkOptions opts r else .error .keyError

/-- `_set_proxy_options(**kwds)`; /repo/teleprox/proxy.py:225-228. A keyword `self` collides with the method's own parameter: the call
raises `TypeError`. -/
def PObj.setOptions (p : PObj) (kwds : Dict String Val) : PObj × Except Exc Unit :=
  if kwds.has "self" then (p, .error .typeError)
  else
    match checkOptions p.opts kwds with
    | .error e => (p, .error e)
    | .ok () => ({ p with opts := p.opts.update kwds }, .ok ())

/-- `ObjectProxy(addr, oid, rid, typeStr, attrs, **kwds)`; /repo/teleprox/proxy.py:83-114. -/
def PObj.new (p : Proxy) (kwds : Dict String Val) : Except Exc PObj :=
  match PObj.setOptions ⟨p, defaultOptions⟩ kwds with
  | (q, .ok ()) => .ok q
  | (_, .error e) => .error e

/-- `_deferred_attr(attr, **kwds)`; /repo/teleprox/proxy.py:289-300. -/
def PObj.deferredAttr (p : PObj) (attr : String) (kwds : Dict String Val := []) : Except Exc PObj :=
  PObj.new { p.proxy with attrs := p.proxy.attrs ++ [attr] } (p.opts.update kwds)

/-- A request with the options of the call; for `send` of the client. /repo/teleprox/proxy.py:347 and /repo/teleprox/client.py:227. -/
structure ProxyReq where
  req : Request
  sync : Val
  returnType : Val
  timeout : Val

/-- `kwargs.pop(k, d)`. /repo/teleprox/proxy.py:346. -/
def popDefault (kw : Dict String Val) (k : String) (d : Val) : Dict String Val × Val := (kw.erase k, (kw.get? k).getD d)

/-- Keyword arguments as a dictionary value. /repo/teleprox/proxy.py:347. -/
def kwVal (kw : Dict String Val) : Val := .dict (kw.map fun e => (.str e.1, e.2))

/-- `__call__(*args, **kwargs)`; /repo/teleprox/proxy.py:340-347. A keyword `self` raises `TypeError` before anything else. -/
def PObj.call (p : PObj) (args : List Val) (kw : Dict String Val) : Except Exc ProxyReq :=
  if kw.has "self" then .error .typeError
  else
    match p.opts.get? "sync", p.opts.get? "return_type", p.opts.get? "timeout" with
    | some s, some r, some t =>
      let (kw, s) := popDefault kw "_sync" s
      let (kw, r) := popDefault kw "_return_type" r
      let (kw, t) := popDefault kw "_timeout" t
      .ok ⟨callObjReq (.proxy p.proxy) (.tuple args) (kwVal kw), s, r, t⟩
    | _, _, _ => .error .keyError

/-- `_undefer(sync, return_type)` of a proxy with attributes; /repo/teleprox/proxy.py:249-256. `none`: there is nothing to resolve and the
proxy itself is returned. The timeout is the default of `send` (10 s, /repo/teleprox/client.py:227). -/
def PObj.undefer (p : PObj) (sync : Val := .str "sync") (returnType : Val := .str "auto") : Option ProxyReq :=
  if p.proxy.attrs.length = 0 then none
  else some ⟨getObjReq (.proxy p.proxy), sync, returnType, .int 10⟩

/-- `_get_value()`; /repo/teleprox/proxy.py:230-239. Always the request of line 239: `_client()` gives a client or raises (`Verif.Model.ProxyClient`), never None, so line 237 is dead
code. Sync and timeout are the defaults of `send` (/repo/teleprox/client.py:227). -/
def PObj.getValue (p : PObj) : ProxyReq := ⟨getObjReq (.proxy p.proxy), .str "sync", .str "value", .int 10⟩

/-- Names that Python finds on a proxy or its class before it asks `__getattr__`; /repo/teleprox/proxy.py:94-103 (instance), the methods of
the class, and what every object has. -/
def ownNames : List String :=
  ["_rpc_addr", "_obj_id", "_ref_id", "_type_str", "_attributes", "_parent_proxy", "_hash", "_client_", "_server_", "_proxy_options",
   "__init__", "_init_state", "__setstate__", "__getstate__", "_copy", "_client", "_server", "_set_proxy_options",
   "_get_value", "__repr__", "_undefer", "_delete", "__del__", "__getattr__", "_deferred_attr", "__call__",
   "__hash__", "__getitem__", "__setitem__", "__setattr__", "__str__", "__len__", "__add__", "__sub__", "__div__",
   "__truediv__", "__floordiv__", "__mul__", "__pow__", "__iadd__", "__isub__", "__idiv__", "__itruediv__",
   "__ifloordiv__", "__imul__", "__ipow__", "__rshift__", "__lshift__", "__irshift__", "__ilshift__", "__eq__",
   "__ne__", "__lt__", "__gt__", "__le__", "__ge__", "__and__", "__or__", "__xor__", "__iand__", "__ior__",
   "__ixor__", "__mod__", "__radd__", "__rsub__", "__rdiv__", "__rfloordiv__", "__rtruediv__", "__rmul__",
   "__rpow__", "__rrshift__", "__rlshift__", "__rand__", "__ror__", "__rxor__", "__rmod__",
   "__class__", "__delattr__", "__dict__", "__dir__", "__doc__", "__format__", "__getattribute__", "__init_subclass__",
   "__module__", "__new__", "__reduce__", "__reduce_ex__", "__sizeof__", "__subclasshook__", "__weakref__"]

/-- What `p.attr` gives. /repo/teleprox/proxy.py:271-287. -/
inductive Access where
  /-- an attribute of the proxy object itself -/
  | own (name : String)
  /-- a new proxy; nothing is sent -/
  | deferred (q : PObj)
  /-- the answer to a request -/
  | asks (r : ProxyReq)
  /-- an exception -/
  | raises (e : Exc)

/-- `p.attr`; /repo/teleprox/proxy.py:283-287. -/
def PObj.getattr (p : PObj) (attr : String) : Access :=
  if attr ∈ ownNames then .own attr
  else
    match p.deferredAttr attr with
    | .error e => .raises e
    | .ok q =>
      if p.on "defer_getattr" then .deferred q
      else match q.undefer with
        | some r => .asks r
        | none => .deferred q

/-- `p.a1. … .an`, as long as nothing is asked. Repeated /repo/teleprox/proxy.py:271-287. -/
def PObj.getattrs (p : PObj) : List String → Access
  | [] => .deferred p
  | a :: as =>
    match p.getattr a with
    | .deferred q => q.getattrs as
    | x => x

/-- The special methods that pass their arguments on, with the name of the remote method; /repo/teleprox/proxy.py:359-513. -/
def opTable : List (String × String) :=
  [("__getitem__", "__getitem__"), ("__setitem__", "__setitem__"), ("__setattr__", "__setattr__"), ("__len__",
   "__len__"), ("__add__", "__add__"), ("__sub__", "__sub__"), ("__div__", "__div__"), ("__truediv__",
   "__truediv__"), ("__floordiv__", "__floordiv__"), ("__mul__", "__mul__"), ("__pow__", "__pow__"), ("__iadd__",
   "__iadd__"), ("__isub__", "__isub__"), ("__idiv__", "__idiv__"), ("__itruediv__", "__itruediv__"),
   ("__ifloordiv__", "__ifloordiv__"), ("__imul__", "__imul__"), ("__ipow__", "__ipow__"), ("__rshift__",
   "__rshift__"), ("__lshift__", "__lshift__"), ("__irshift__", "__irshift__"), ("__ilshift__", "__ilshift__"),
   ("__eq__", "__eq__"), ("__ne__", "__ne__"), ("__lt__", "__lt__"), ("__gt__", "__gt__"), ("__le__", "__le__"),
   ("__ge__", "__ge__"), ("__and__", "__and__"), ("__or__", "__or__"), ("__xor__", "__xor__"), ("__iand__", "__iand__"),
   ("__ior__", "__ior__"), ("__ixor__", "__ixor__"), ("__mod__", "__mod__"), ("__radd__", "__radd__"), ("__rsub__",
   "__rsub__"), ("__rdiv__", "__rdiv__"), ("__rfloordiv__", "__rfloordiv__"), ("__rtruediv__", "__rtruediv__"),
   ("__rmul__", "__rmul__"), ("__rpow__", "__rpow__"), ("__rrshift__", "__rrshift__"), ("__rlshift__",
   "__rlshift__"), ("__rand__", "__rand__"), ("__ror__", "__ror__"), ("__rxor__", "__ror__"), ("__rmod__",
   "__rmod__")]

/-- `self._deferred_attr(name)(*args)`. /repo/teleprox/proxy.py:359-513. -/
def PObj.forward (p : PObj) (name : String) (args : List Val) : Except Exc ProxyReq :=
  match p.deferredAttr name with
  | .ok q => q.call args []
  | .error e => .error e

/-- The comparison with another proxy in `__eq__`; /repo/teleprox/proxy.py:434-437. Instances of subclasses of `ObjectProxy` are not modelled. -/
def PObj.sameObject (p : PObj) : List Val → Except Exc Bool
  | [] => .error .indexError
  | .proxy q :: _ => .ok (q.addr = p.proxy.addr && q.oid = p.proxy.oid)
  | _ => .ok false

/-- What a special method does. Results of /repo/teleprox/proxy.py:359-513. -/
inductive OpResult where
  /-- returns without contacting the server -/
  | value (v : Val)
  | asks (r : ProxyReq)
  | raises (e : Exc)

/-- A request or an exception. Part of /repo/teleprox/proxy.py:359-513. -/
def OpResult.of : Except Exc ProxyReq → OpResult
  | .ok r => .asks r
  | .error e => .raises e

/-- The special method `m` called with `args`; /repo/teleprox/proxy.py:359-513; `none` if the class does not define it. -/
def PObj.op (p : PObj) (m : String) (args : List Val) : Option OpResult :=
  match opTable.find? (·.1 = m) with
  | none => none
  | some (_, name) =>
    if m = "__eq__" then
      match p.sameObject args with
      | .error e => some (.raises e)
      | .ok true => some (.value (.bool true))
      | .ok false => some (.of (p.forward name args))
    else some (.of (p.forward name args))

/-- `__hash__`; /repo/teleprox/proxy.py:349-355; `h` is Python's `hash` of the tuple. -/
def PObj.hash (h : String × Nat × List String → Int) (p : PObj) : Int := h (p.proxy.addr, p.proxy.oid, p.proxy.attrs)

/-- What `repr(p)` and `str(p)` do. Results of /repo/teleprox/proxy.py:241-247, 368-372. -/
inductive Shown where
  /-- this text; nothing is sent -/
  | text (s : String)
  /-- the text comes from the answer to this request -/
  | asks (r : ProxyReq)
  | raises (e : Exc)

/-- `'<ObjectProxy for %s[%d] %s >' % (…, orep)`; /repo/teleprox/proxy.py:246. -/
def PObj.wrapped (p : PObj) (orep : String) : String :=
  "<ObjectProxy for " ++ p.proxy.addr ++ "[" ++ toString p.proxy.oid ++ "] " ++ orep ++ " >"

/-- A request for a text of the object, or what it raises. /repo/teleprox/proxy.py:245, 372. -/
def PObj.askText (p : PObj) (m : String) : Shown :=
  match p.deferredAttr m with
  | .error e => .raises e
  | .ok q =>
    match q.call [] [("_return_type", .str "value")] with
    | .error e => .raises e
    | .ok r => .asks r

/-- `__repr__`; /repo/teleprox/proxy.py:241-247. -/
def PObj.repr (p : PObj) : Shown :=
  if p.on "safe_print" then .text (p.wrapped (".".intercalate (p.proxy.typeStr :: p.proxy.attrs)))
  else p.askText "__repr__"

/-- `__repr__` after the answer; `strOf` is Python's `str`, which `%s` applies. /repo/teleprox/proxy.py:246-247. -/
def PObj.reprAnswer (p : PObj) (strOf : Val → String) (a : Val) : String := p.wrapped (strOf a)

/-- `__str__`; /repo/teleprox/proxy.py:368-372. -/
def PObj.str (p : PObj) : Shown := if p.on "safe_print" then p.repr else p.askText "__str__"

/-- `str(p)` after the answer: Python accepts only a str. /repo/teleprox/proxy.py:372. -/
def strAnswer : Val → Except Exc String
  | .str s => .ok s
  | _ => .error .typeError

/-- The last statement of `_copy`, `prox._parent_proxy = v`, which goes through `__setattr__`; `done` are the requests made before.
/repo/teleprox/proxy.py:146, 365-366. -/
def PObj.setParent (q : PObj) (answer : ProxyReq → Except Exc Val) (done : List ProxyReq) (v : Val) : List ProxyReq × Except Exc PObj :=
  match q.forward "__setattr__" [.str "_parent_proxy", v] with
  | .error e => (done, .error e)
  | .ok r =>
    match answer r with
    | .error e => (done ++ [r], .error e)
    | .ok _ => (done ++ [r], .ok q)

/-- `_copy`; /repo/teleprox/proxy.py:139-147: the requests in the order they are made, and the copy. `answer` is what the server answers to each
request (an error: the call raises that). For a proxy derived from another one (`parent`), `self._parent_proxy.copy` is an attribute of the
remote object, and the last assignment goes through `__setattr__`: both are requests to the server. Simplifications: a value other than a proxy
that is received for `copy` (defer_getattr off) is not callable; a proxy received for it has the options of a new proxy. -/
def PObj.copy (p : PObj) (parent : Option PObj) (answer : ProxyReq → Except Exc Val) : List ProxyReq × Except Exc PObj :=
  match PObj.new p.proxy p.opts with
  | .error e => ([], .error e)
  | .ok q =>
    match parent with
    | none => ([], .ok q)
    | some par =>
      match par.getattr "copy" with
      | .own _ => ([], .error .attributeError)
      | .raises e => ([], .error e)
      | .deferred c =>
        match c.call [] [] with
        | .error e => ([], .error e)
        | .ok r =>
          match answer r with
          | .error e => ([r], .error e)
          | .ok v => q.setParent answer [r] v
      | .asks r =>
        match answer r with
        | .error e => ([r], .error e)
        | .ok (.proxy c) =>
          match PObj.call ⟨c, defaultOptions⟩ [] [] with
          | .error e => ([r], .error e)
          | .ok r' =>
            match answer r' with
            | .error e => ([r, r'], .error e)
            | .ok v => q.setParent answer [r, r'] v
        | .ok _ => ([r], .error .typeError)

/-- `__getstate__` then `__setstate__` of a new object: `copy.copy(p)`, or pickling. /repo/teleprox/proxy.py:116-137. -/
def PObj.restored (p : PObj) : PObj := ⟨p.proxy, defaultOptions⟩

/-- A proxy as a client receives it, with `default_proxy_options` of the client; /repo/teleprox/serializer.py:188-190,
/repo/teleprox/client.py:154, 525. -/
def PObj.received (x : Proxy) (dflt : Dict String Val) : Except Exc PObj :=
  match PObj.new x [] with
  | .error e => .error e
  | .ok p =>
    match p.setOptions dflt with
    | (q, .ok ()) => .ok q
    | (_, .error e) => .error e

end Verif
