import Verif.Model.Refs
/-!
# Lifetimes of proxies

The proxies alive in one client process and the references they stand for in the table of one server. Which proxies the program still
holds is up to the program: any proxy that no living proxy holds as its parent may be collected at any time.
-/
namespace Verif

/-- Where a proxy comes from: handed out by the server, by an attribute access or operator on another proxy (its `_parent_proxy`,
/repo/teleprox/proxy.py:297-299), or by `_copy` (139-147) or by sending it (121-137): both without parent. -/
inductive Origin where
  | obtained
  | derived (parent : Nat)
  | copied
  deriving DecidableEq, Repr

/-- A living proxy. `obj`, the object it was handed out for, is no part of it; it is kept for the statements.
/repo/teleprox/proxy.py:91-114. -/
structure LiveProxy where
  oid : Nat
  rid : Nat
  obj : Obj
  auto : Bool
  origin : Origin
  deriving DecidableEq, Repr

/-- The table of the server and the living proxies by number, in order of creation.
/repo/teleprox/server.py:173-181 and /repo/teleprox/proxy.py:91-114. -/
structure LifeSt where
  refs : Refs
  live : Dict Nat LiveProxy
  next : Nat

/-- What happens. `other`: an operation on the table by somebody else.
/repo/teleprox/server.py:193-206, 364-370 and /repo/teleprox/proxy.py:258-300. -/
inductive LifeEv where
  | obtain (o : Obj)
  | setAuto (i : Nat) (b : Bool)
  | derive (i : Nat)
  | copy (i : Nat)
  | send (i : Nat)
  | collect (i : Nat)
  | delete (i : Nat)
  | other (op : RefOp)
  deriving DecidableEq, Repr

/-- At the start. /repo/teleprox/server.py:173-181. -/
def LifeSt.init : LifeSt := ⟨Refs.init, [], 0⟩

/-- A new proxy. /repo/teleprox/proxy.py:83-114. -/
def LifeSt.add (s : LifeSt) (p : LiveProxy) : LifeSt := { s with live := s.live.set s.next p, next := s.next + 1 }

/-- Some living proxy holds proxy `i` as its parent. `_parent_proxy`, /repo/teleprox/proxy.py:297-299. -/
def LifeSt.hasChild (s : LifeSt) (i : Nat) : Bool := s.live.any fun e => e.2.origin = .derived i

/-- One event, with the operations on the table and their results. Events about proxies that do not live do nothing. A derived proxy
and a copy have the options of the original (/repo/teleprox/proxy.py:143-144, 293-296), a sent one has not (134-136). Collecting a proxy
with `auto_delete` sends a delete request (277-281), whose failure Python ignores. Simplification: the request of `__del__` is carried out
at once (it is synchronous). -/
def LifeSt.step (idOf : Obj → Nat) (s : LifeSt) : LifeEv → LifeSt × List (RefOp × RefOut)
  | .obtain o =>
    let (t, out) := s.refs.step idOf (.get o [])
    let s := { s with refs := t }
    match out with
    | .proxy oid rid => (s.add ⟨oid, rid, o, false, .obtained⟩, [(.get o [], out)])
    | _ => (s, [(.get o [], out)])
  | .setAuto i b =>
    match s.live.get? i with
    | some p => ({ s with live := s.live.set i { p with auto := b } }, [])
    | none => (s, [])
  | .derive i =>
    match s.live.get? i with
    | some p => (s.add { p with origin := .derived i }, [])
    | none => (s, [])
  | .copy i =>
    match s.live.get? i with
    | some p => (s.add { p with origin := .copied }, [])
    | none => (s, [])
  | .send i =>
    match s.live.get? i with
    | some p => (s.add { p with origin := .copied, auto := false }, [])
    | none => (s, [])
  | .collect i =>
    match s.live.get? i with
    | some p =>
      if s.hasChild i then (s, [])
      else
        let s := { s with live := s.live.erase i }
        if p.auto then
          let (t, out) := s.refs.step idOf (.delete p.oid p.rid)
          ({ s with refs := t }, [(.delete p.oid p.rid, out)])
        else (s, [])
    | none => (s, [])
  | .delete i =>
    match s.live.get? i with
    | some p =>
      let (t, out) := s.refs.step idOf (.delete p.oid p.rid)
      ({ s with refs := t }, [(.delete p.oid p.rid, out)])
    | none => (s, [])
  | .other op =>
    let (t, out) := s.refs.step idOf op
    ({ s with refs := t }, [(op, out)])

end Verif
