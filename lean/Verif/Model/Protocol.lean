import Verif.Model.Proxy
import Verif.Model.Wait
/-!
# Python's protocols on proxies

What Python does with a proxy where an expression uses a special method: `for x in p`, `x in p`, `bool(p)`, `p + x`, `p += x`. Python looks special methods up on the
class, so `__getattr__` of /repo/teleprox/proxy.py:271 is not asked; the class defines those of lines 349-513 and neither `__iter__`, `__contains__` nor `__bool__`.
-/
namespace Verif

/-- How a loop over a proxy ends. /repo/teleprox/proxy.py:359-360. -/
inductive LoopEnd where
  /-- as a loop ends: `IndexError` or `StopIteration` from `__getitem__` -/
  | stopped
  /-- another exception -/
  | raised (r : Result)
  /-- the answers given are used up -/
  | unfinished

/-- The exceptions that end iteration by index. Python's sequence iterator over /repo/teleprox/proxy.py:359-360. -/
def Exc.endsLoop : Exc → Bool
  | .indexError => true
  | .other "StopIteration" => true
  | _ => false

/-- `for x in p` from index `i` on: the class has `__getitem__` but no `__iter__`, so Python asks for `p[0]`, `p[1]`, … until an exception. The list are the outcomes of
these expressions (what the synchronous request returned or raised). Returns the requests made, the values the loop variable took, and the end.
/repo/teleprox/proxy.py:359-360. -/
def PObj.loop (p : PObj) (i : Nat) : List Result → List ProxyReq × List Val × LoopEnd
  | [] => ([], [], .unfinished)
  | a :: as =>
    match p.op "__getitem__" [.int i] with
    | some (.asks r) =>
      match a with
      | .value v =>
        let (rs, vs, e) := p.loop (i + 1) as
        (r :: rs, v :: vs, e)
      | .exc e => ([r], [], if e.endsLoop then .stopped else .raised (.exc e))
      | x => ([r], [], .raised x)
    | some (.raises e) => ([], [], if e.endsLoop then .stopped else .raised (.exc e))
    | some (.value v) =>
      let (rs, vs, e) := p.loop (i + 1) as
      (rs, v :: vs, e)
    | none => ([], [], .raised (.exc .typeError))

/-- `x in p`: the class has no `__contains__`, so Python iterates and compares (`eq v` is `v == x`); `none`: the answers are used up.
/repo/teleprox/proxy.py:359-360. -/
def PObj.contains (p : PObj) (eq : Val → Bool) (as : List Result) : Option (Except Result Bool) :=
  match p.loop 0 as with
  | (_, vs, e) =>
    if vs.any eq then some (.ok true)
    else match e with
      | .stopped => some (.ok false)
      | .raised r => some (.error r)
      | .unfinished => none

/-- `sys.maxsize` of a 64-bit Python, the greatest length. Used by `bool(p)` through /repo/teleprox/proxy.py:374-375. -/
def pyMaxSize : Int := 9223372036854775807

/-- `operator.index(v)`: ints, bools and numpy integers. Used by `bool(p)` through /repo/teleprox/proxy.py:374-375. -/
def pyIndex : Val → Option Int
  | .int n => some n
  | .bool b => some b.toNat
  | .npScalar { dtype := { kind := .integer, .. }, val := .int n } => some n
  | _ => none

/-- What Python makes of the result of `__len__`: an integer from 0 to `sys.maxsize`. Used by `bool(p)` through /repo/teleprox/proxy.py:374-375. -/
def lenResult (v : Val) : Except Exc Nat :=
  match pyIndex v with
  | none => .error .typeError
  | some n => if n < 0 then .error .valueError else if n ≤ pyMaxSize then .ok n.toNat else .error (.other "OverflowError")

/-- `bool(p)`: the class has `__len__` but no `__bool__`, so Python asks for the length; `a` is the outcome of that request.
/repo/teleprox/proxy.py:374-375. -/
def PObj.truth (p : PObj) (a : Result) : Except Result Bool :=
  match p.op "__len__" [] with
  | some (.asks _) =>
    match a with
    | .value v => match lenResult v with
      | .ok n => .ok (n ≠ 0)
      | .error e => .error (.exc e)
    | x => .error x
  | some (.raises e) => .error (.exc e)
  | some (.value v) => match lenResult v with
    | .ok n => .ok (n ≠ 0)
    | .error e => .error (.exc e)
  | none => .ok true

/-- What calling a method gives. The remote call of /repo/teleprox/server.py:353-361. -/
inductive MethRes where
  | value (v : Val)
  /-- the constant `NotImplemented` -/
  | notImplemented
  | raises (e : Exc)

/-- The methods of an object: `none` if `getattr` raises AttributeError. /repo/teleprox/server.py:225-226, 353-361. -/
abbrev Methods := String → Option (List Val → MethRes)

/-- What the server answers to the request to call method `m` of the object with arguments as they arrive: AttributeError if there is none, and `NotImplemented`, which is no
serialize type, as a proxy `ni`. /repo/teleprox/server.py:225-226, 302-303, 316-317. -/
def Methods.answer (o : Methods) (ni : Proxy) (tb : Val) (m : String) (args : List Val) : Result :=
  match o m with
  | none => .remoteCall (.str Exc.attributeError.name) tb
  | some f =>
    match f args with
    | .value v => .value v
    | .notImplemented => .value (.proxy ni)
    | .raises e => .remoteCall (.str e.name) tb

/-- `p op x` for a proxy `p` with special method `m`, where `x` is no proxy: Python calls `p.m(x)`, which never gives `NotImplemented` itself, so nothing else is tried.
`answer` is what the server answers to the call of a method with arguments. /repo/teleprox/proxy.py:377-513. -/
def PObj.binary (p : PObj) (answer : String → List Val → Result) (m : String) (x : Val) : Option Result :=
  match p.op m [x] with
  | some (.asks ⟨(_, some (.dict [(_, .proxy q), (_, .tuple args), _])), _, _, _⟩) => q.attrs.getLast?.map fun name => answer name args
  | some (.value v) => some (.value v)
  | some (.raises e) => some (.exc e)
  | _ => none

/-- `p op= x`: the in-place method if the class has it, otherwise as `p op x`. /repo/teleprox/proxy.py:398-471. -/
def PObj.inplace (p : PObj) (answer : String → List Val → Result) (im m : String) (x : Val) : Option Result :=
  if opTable.any (·.1 = im) then p.binary answer im x else p.binary answer m x

end Verif
