import Verif.Model.Serializer
/-!
# The attributes of a serializer object

`dumps` and `loads` keep their arguments in attributes of the serializer (`_server`, `_serialize_types`,
`_proxy_opts`), where `encode` and `decode` find them; /repo/teleprox/serializer.py:70-81. A client has one serializer
object (/repo/teleprox/client.py:164), a server one of each kind (/repo/teleprox/server.py:153-155), which it uses for all its
clients. Both `encode` (by pickling) and `decode` (by unwrapping a proxy, which reads attributes) run code of the user, which
may make requests and thereby have the same serializer object called again before the call ends. `Verif.Model.Serializer`
passes the arguments on directly; this module models the attributes.
-/
namespace Verif

/-- A call of `dumps` or `loads` with its arguments; /repo/teleprox/serializer.py:239, 246, 283, 288. Servers stand for their
addresses, `O` for proxy options. -/
inductive SerCall (O : Type) where
  | dumps (server : Option String) (tys : List Ty)
  | loads (server : Option String) (opts : Option O)

/-- The attributes; /repo/teleprox/serializer.py:70-73. -/
structure SerAttrs (O : Type) where
  server : Option String
  tys : List Ty
  opts : Option O

/-- `Serializer.__init__`; /repo/teleprox/serializer.py:70-73. -/
def SerAttrs.init {O : Type} : SerAttrs O := ⟨none, defaultTypes, none⟩

/-- The beginning of a call; /repo/teleprox/serializer.py:242-243, 252-253, 284-285, 289-290. -/
def SerAttrs.start {O : Type} (s : SerAttrs O) : SerCall O → SerAttrs O
  | .dumps srv tys => { s with server := srv, tys := effTypes tys }
  | .loads srv opts => { s with server := srv, opts := opts }

/-- The property `server`, in a thread whose server is `here`; /repo/teleprox/serializer.py:75-81. -/
def SerAttrs.getServer {O : Type} (s : SerAttrs O) (here : Option String) : SerAttrs O × Option String :=
  match s.server with
  | some a => (s, some a)
  | none => ({ s with server := here }, here)

/-- What happens to a serializer object. /repo/teleprox/serializer.py:75-81, 239-291. -/
inductive SerEv (O : Type) where
  /-- a call begins, possibly while others have not ended -/
  | start (c : SerCall O)
  /-- the innermost call returns or raises -/
  | finish
  /-- `encode` or `decode`, in the innermost call, looks at the attributes -/
  | look
  /-- the thread gets a server or loses it (`register_server`, `unregister_server`) -/
  | thread (here : Option String)

/-- The object, the calls that have not ended (innermost first), and the server of the thread.
/repo/teleprox/serializer.py:70-81. -/
structure SerSt (O : Type) where
  attrs : SerAttrs O
  calls : List (SerCall O)
  here : Option String

/-- One event; a look shows what `encode` and `decode` find: server, types and options.
/repo/teleprox/serializer.py:75-81, 102-106, 189-192, 239-253, 283-290. -/
def SerSt.step {O : Type} (s : SerSt O) : SerEv O → SerSt O × Option (SerCall O × Option String × List Ty × Option O)
  | .start c => ({ s with attrs := s.attrs.start c, calls := c :: s.calls }, none)
  | .finish => ({ s with calls := s.calls.tail }, none)
  | .look =>
    match s.calls with
    | [] => (s, none)
    | c :: _ =>
      ({ s with attrs := (s.attrs.getServer s.here).1 },
        some (c, (s.attrs.getServer s.here).2, s.attrs.tys, s.attrs.opts))
  | .thread h => ({ s with here := h }, none)

/-- A history, with everything seen. Sequences of /repo/teleprox/serializer.py:239-291. -/
def SerSt.run {O : Type} (s : SerSt O) : List (SerEv O) → SerSt O × List (SerCall O × Option String × List Ty × Option O)
  | [] => (s, [])
  | e :: es => (((s.step e).1.run es).1, (s.step e).2.toList ++ ((s.step e).1.run es).2)

/-- A new serializer object in a thread with server `here`. /repo/teleprox/serializer.py:70-73. -/
def SerSt.init {O : Type} (here : Option String) : SerSt O := ⟨.init, [], here⟩

end Verif
