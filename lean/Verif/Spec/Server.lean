import Verif.Model.Server
import Verif.Spec.Transport
/-!
# What may be observed of a server

A reply is recognised the way a client does it: by the `action` and `req_id` fields of the message.
-/
namespace Verif

/-- A field of a message tree. -/
def mapField : List (Wire × Wire) → String → Option Wire
  | [], _ => none
  | (.str s, w) :: r, k => if s = k then some w else mapField r k
  | _ :: r, k => mapField r k

/-- A field of a message tree. -/
def wireField : Wire → String → Option Wire
  | .map m, k => mapField m k
  | _, _ => none

/-- The request id of a reply message. -/
def replyId (L : Lib) (ser : Ser) (w : Wire) : Option Int :=
  match wireField w "action" with
  | some (.str "return") =>
    match wireField w "req_id" with
    | some wi =>
      match ser.loads ⟨L, none⟩ wi with
      | .ok (.int i) => some i
      | _ => none
    | none => none
  | _ => none

/-- The message is a disconnect message. -/
def isDisconnect (w : Wire) : Bool :=
  match wireField w "action" with
  | some (.str "disconnect") => true
  | _ => false

/-- A request being processed, and whether its reply was sent. -/
structure OpenReq where
  caller : Bytes
  id : Int
  replied : Bool
  deriving DecidableEq, Repr

/-- The allowed observations, as an automaton on the stack of requests being processed: a reply goes to the
innermost request only, to its caller, with its id, at most once, never for negative ids; processing may end
normally only once the reply is sent (or none is due), and requests end innermost first. -/
def protoStep (L : Lib) (st : List OpenReq) : Out → Option (List OpenReq)
  | .accept c k _ _ => some (⟨c, k, false⟩ :: st)
  | .send c ser w =>
    match replyId L ser w with
    | some k =>
      match st with
      | [] => none
      | o :: r => if o.caller = c ∧ o.id = k ∧ 0 ≤ k ∧ o.replied = false then some ({ o with replied := true } :: r) else none
    | none => if isDisconnect w then some st else none
  | .done c k raised =>
    match st with
    | [] => none
    | o :: r =>
      if o.caller = c ∧ o.id = k ∧ o.replied = (raised.isNone && decide (0 ≤ k)) then some r else none
  | _ => some st

/-- The automaton on a sequence of observations; `none` if one of them is not allowed. -/
def proto (L : Lib) : List OpenReq → List Out → Option (List OpenReq)
  | st, [] => some st
  | st, o :: os =>
    match protoStep L st o with
    | some st' => proto L st' os
    | none => none

/-- number of replies to request `k` of caller `c` -/
def countReplies (L : Lib) (c : Bytes) (k : Int) (os : List Out) : Nat :=
  os.countP fun o => match o with
    | .send c' ser w => decide (c' = c) && decide (replyId L ser w = some k)
    | _ => false

/-- number of requests `k` of caller `c` whose processing started -/
def countAccepted (c : Bytes) (k : Int) (os : List Out) : Nat :=
  os.countP fun o => match o with
    | .accept c' k' _ _ => decide (c' = c) && decide (k' = k)
    | _ => false

/-- number of requests `k` of caller `c` whose processing ended normally -/
def countDone (c : Bytes) (k : Int) (os : List Out) : Nat :=
  os.countP fun o => match o with
    | .done c' k' none => decide (c' = c) && decide (k' = k)
    | _ => false

/-- number of requests `k` of caller `c` whose processing ended by an exception -/
def countRaised (c : Bytes) (k : Int) (os : List Out) : Nat :=
  os.countP fun o => match o with
    | .done c' k' (some _) => decide (c' = c) && decide (k' = k)
    | _ => false

/-- The heap an event happens in. -/
def Ev.heap : Ev → Heap
  | .recv H _ => H
  | .ret H _ => H
  | .publish H _ _ => H
  | .mkProxy H _ _ => H

/-- The requests being processed, innermost first. -/
def Srv.openReqs (s : Srv) : List OpenReq := s.stack.map fun f => ⟨f.caller, f.reqId, false⟩

/-- A message is well-formed: it has six decodable parts, names a supported serializer and comes from a caller
with a UTF-8 name. What it asks for is arbitrary. -/
def WellFormed (H : Heap) (parts : List Bytes) : Prop :=
  ∃ c m, readOne H parts = .ok (c, m) ∧ serOf m.serType ≠ none ∧ H.utf8 c ≠ none

/-- The message asks to close the server. -/
def AsksClose (H : Heap) (parts : List Bytes) : Prop := ∃ c m, readOne H parts = .ok (c, m) ∧ m.action = "close"

/-- An event in a process with libraries `L` and decoding function `u`, with exception texts that have no lone
surrogates; messages are well-formed and do not ask to close. -/
structure TameEv (L : Lib) (u : Bytes → Option String) (e : Ev) : Prop where
  lib : e.heap.lib = L
  utf8 : e.heap.utf8 = u
  text : e.heap.tbBad = false
  msg : ∀ H parts, e = .recv H parts → WellFormed H parts ∧ ¬ AsksClose H parts

/-- A failure inside the server that it did not report to a client. -/
def Out.failure : Out → Bool
  | .done _ _ (some _) => true
  | .badRead _ => true
  | _ => false

/-- Python's guarantee about `id()` while one step runs: the values of the step are alive together with one
another and with every object the table holds. -/
structure LiveHeap (H : Heap) (t : Refs) : Prop where
  sent : ∀ u u', H.idOf (H.ident u) = H.idOf (H.ident u') → H.ident u = H.ident u'
  held : ∀ oid o rs, t.refs.get? oid = some (o, rs) → ∀ u, H.idOf o = H.idOf (H.ident u) → o = H.ident u

/-- every event of the run happens in a process with `id()` function `idOf` and live objects -/
def LiveRun (idOf : Obj → Nat) : Srv → List Ev → Prop
  | _, [] => True
  | s, e :: es => e.heap.idOf = idOf ∧ LiveHeap e.heap s.refs ∧ LiveRun idOf (s.step e).1 es

/-! ## The outcome of a request -/

/-- The options of a message as the server reads them. -/
def Msg.payload (H : Heap) (s : Srv) (m : Msg) (ser : Ser) : Except Exc Val :=
  if m.opts = [] then .ok .none
  else match H.parse ser m.opts with
    | .ok w => ser.loads (s.recvEnv H) w
    | .error e => .error e

/-- The server would read the next message. -/
def Srv.Serving (s : Srv) : Prop := s.closed = false ∧ s.dead = false ∧ s.sockOpen = true

/-- `Outcome s e c k rt r s1 o`: in state `s`, event `e` completes the action asked for by request `k` of caller
`c` with return type `rt`: either the message just read needs no user code, or the innermost user code ended. The
action has result `r`, leaves the server in state `s1`, and sent `o`. -/
def Outcome (s : Srv) (e : Ev) (c : Bytes) (k : Int) (rt : String) (r : Except Exc Val) (s1 : Srv) (o : List Out) : Prop :=
  match e with
  | .ret H r0 => ∃ task st, s.stack = ⟨c, k, rt, task⟩ :: st ∧ r = task.result H r0 ∧ s1 = { s with stack := st } ∧ o = []
  | .recv H parts => ∃ a st b ser opts, readOne H parts = .ok (c, ⟨k, a, rt, st, b⟩) ∧ s.Serving ∧ serOf st = some ser ∧
      H.utf8 c ≠ none ∧ Msg.payload H { s with clients := s.clients.set c st } ⟨k, a, rt, st, b⟩ ser = .ok opts ∧
      Srv.action H { s with clients := s.clients.set c st } c a opts = .finished s1 o r
  | _ => False

/-- Event `e` completes request `k` of `c`, in one of three ways: the action needs no user code, its user code ends, or its
options cannot be read. -/
def Completes (s : Srv) (e : Ev) (c : Bytes) (k : Int) (rt : String) (r : Except Exc Val) (s1 : Srv) : Prop :=
  (∃ o, Outcome s e c k rt r s1 o) ∨
  ∃ H parts m x ser, e = .recv H parts ∧ s.Serving ∧ readOne H parts = .ok (c, m) ∧ m.reqId = k ∧ m.returnType = rt ∧
    serOf m.serType = some ser ∧ m.payload H s ser = .error x ∧ r = .error x ∧ s1 = { s with clients := s.clients.set c m.serType }

/-- What a serializer is meant to carry. -/
def Ser.Sendable (ser : Ser) (R : RecvEnv) (v : Val) : Prop :=
  match ser with
  | .msgpack => Verif.Sendable R v
  | .json => JSendable R v

/-- What arrives of a value, by serializer. -/
def Ser.Arrives (ser : Ser) (L : Lib) (tys : List Ty) (P : Val → Val → Prop) (v v' : Val) : Prop :=
  match ser with
  | .msgpack => Verif.Arrives tys P v v'
  | .json => JArrives L tys P v v'

/-- The value is serializable, by serializer. -/
def Ser.Serializable (ser : Ser) (L : Lib) (tys : List Ty) (v : Val) : Prop :=
  match ser with
  | .msgpack => Packable L tys v ∧ v.depth ≤ 511
  | .json => JPackable L tys v ∧ v.jdepth ≤ 999

/-- A pair as it arrives. -/
def Ser.pair (ser : Ser) (a b : Val) : Val :=
  match ser with
  | .msgpack => .tuple [a, b]
  | .json => .list [a, b]

/-- `Reply R os c k rval error`: among the observations `os` is a reply to request `k` of caller `c`, and a
receiver `R` reads from it this result and this error. -/
def Reply (R : RecvEnv) (os : List Out) (c : Bytes) (k : Int) (rval error : Val) : Prop :=
  ∃ ser w d, .send c ser w ∈ os ∧ ser.loads R w = .ok (.dict d) ∧ lookupStr d "action" = some (.str "return") ∧
    lookupStr d "req_id" = some (.int k) ∧ lookupStr d "rval" = some rval ∧ lookupStr d "error" = some error

/-! ## Published names -/

/-- What an event publishes: `server[name] = v` in the server's process, or a readable `set_item` request. -/
def Srv.written (s : Srv) : Ev → Option (Key × Val)
  | .publish H name v =>
    match keyOf H name with
    | .ok k => some (k, v)
    | .error _ => none
  | .recv H parts =>
    if s.closed || s.dead || !s.sockOpen then none
    else
      match readOne H parts with
      | .ok (c, m) =>
        match serOf m.serType, H.utf8 c with
        | some ser, some _ =>
          match Msg.payload H s m ser with
          | .ok opts =>
            if m.action = "set_item" then
              match optGet H opts "obj", (optGet H opts "name").bind (keyOf H) with
              | .ok v, .ok k => some (k, v)
              | _, _ => none
            else none
          | .error _ => none
        | _, _ => none
      | .error _ => none
  | _ => none

/-- Everything published in a run, oldest first. -/
def Srv.writes (s : Srv) : List Ev → List (Key × Val)
  | [] => []
  | e :: es => (s.written e).toList ++ (s.step e).1.writes es

/-- The last entry for a key. -/
def lastOf {κ ν : Type} [DecidableEq κ] (ws : List (κ × ν)) (k : κ) : Option ν :=
  (ws.reverse.find? (fun w => decide (w.1 = k))).map (·.2)

/-! ## Known clients -/

/-- The callers of accepted messages with the serializers they named, oldest first. -/
def acceptedBy (os : List Out) : List (Bytes × String) :=
  os.filterMap fun o => match o with
    | .accept c _ _ st => some (c, st)
    | _ => none

/-- number of disconnect messages to `c` in serializer `ser` -/
def countDisconnects (c : Bytes) (ser : Ser) (os : List Out) : Nat :=
  os.countP fun o => match o with
    | .send c' ser' w => decide (c' = c) && decide (ser' = ser) && isDisconnect w
    | _ => false

/-- number of messages sent to `c` -/
def countSends (c : Bytes) (os : List Out) : Nat :=
  os.countP fun o => match o with
    | .send c' _ _ => decide (c' = c)
    | _ => false

end Verif
