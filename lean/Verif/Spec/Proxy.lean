import Verif.Model.Proxy
import Verif.Spec.Transport
/-!
# Vocabulary for C43–C47
-/
namespace Verif

/-- The proxies a program can get hold of: constructed with any options, changed by `_set_proxy_options` (also when it raised), derived by
attribute access, copied, pickled, received. -/
inductive Made : PObj → Prop where
  | new {x kw p} : PObj.new x kw = .ok p → Made p
  | set {p kw q r} : Made p → p.setOptions kw = (q, r) → Made q
  | derive {p a q} : Made p → p.deferredAttr a = .ok q → Made q
  | copy {p par v rs q} : Made p → p.copy par v = (rs, .ok q) → Made q
  | restored {p} : Made p → Made p.restored
  | received {x d q} : PObj.received x d = .ok q → Made q

/-- `Resolves view ga t p r`: on the server with this table the proxy stands for the object `r`, or resolving it raises `r`. -/
inductive Resolves (view : Obj → Val) (ga : GetAttr) (t : Refs) (p : Proxy) : Except Exc Val → Prop where
  | unknown : (∀ o, t.lookup p.oid ≠ .ok o) → Resolves view ga t p (.error .keyError)
  | ok {o x} : t.lookup p.oid = .ok o → AttrChain ga (view o) p.attrs x → Resolves view ga t p (.ok x)
  | raises {o e} : t.lookup p.oid = .ok o → AttrRaises ga (view o) p.attrs e → Resolves view ga t p (.error e)

/-- The keyword arguments that are meant for the remote function. -/
def remoteKw (kw : Dict String Val) : Dict String Val := kw.filter fun e => e.1 ≠ "_sync" ∧ e.1 ≠ "_return_type" ∧ e.1 ≠ "_timeout"

/-- The operators `ObjectProxy` defines. -/
def operatorNames : List String :=
  ["__getitem__", "__setitem__", "__setattr__", "__len__", "__eq__", "__ne__", "__lt__", "__gt__", "__le__", "__ge__",
   "__add__", "__sub__", "__mul__", "__div__", "__truediv__", "__floordiv__", "__mod__", "__pow__", "__lshift__", "__rshift__",
   "__and__", "__or__", "__xor__",
   "__radd__", "__rsub__", "__rmul__", "__rdiv__", "__rtruediv__", "__rfloordiv__", "__rmod__", "__rpow__", "__rlshift__", "__rrshift__",
   "__rand__", "__ror__", "__rxor__",
   "__iadd__", "__isub__", "__imul__", "__idiv__", "__itruediv__", "__ifloordiv__", "__ipow__", "__ilshift__", "__irshift__",
   "__iand__", "__ior__", "__ixor__"]

end Verif
