import Verif.Model.System
import Verif.Spec.Client
import Verif.Spec.Formats
/-!
# What may be observed of a system
-/
namespace Verif

/-- What client `n` does in a step. -/
def Sys.cliEvs (s : Sys) (n : Bytes) : SEv → List CEv
  | .request n' E t a o rt sy => if n' = n then [.send E t a o rt sy] else []
  | .forget n' k => if n' = n then [.drop k] else []
  | .closeClient n' => if n' = n then [.close] else []
  | .deliver n' P junk =>
    if n' = n then
      if (s.cli n).sockOpen then
        match s.down n with
        | [] => []
        | (ser, w) :: _ => [.recv P (if ser = (s.cli n).ser then w else junk)]
      else []
    else []
  | _ => []

/-- What the server does in a step. -/
def Sys.srvEvs (s : Sys) : SEv → List Ev
  | .serve n H =>
    match s.up n with
    | [] => []
    | m :: _ => [.recv H (n :: m)]
  | .ret H r => [.ret H r]
  | .publish H name v => [.publish H name v]
  | .mkProxy H v kwds => [.mkProxy H v kwds]
  | _ => []

/-- The history of client `n` in a run. -/
def Sys.cliHist (K : Codec) (n : Bytes) (s : Sys) : List SEv → List CEv
  | [] => []
  | e :: es => s.cliEvs n e ++ (s.step K e).cliHist K n es

/-- The history of the server in a run. -/
def Sys.srvHist (K : Codec) (s : Sys) : List SEv → List Ev
  | [] => []
  | e :: es => s.srvEvs e ++ (s.step K e).srvHist K es

/-- Everything observed of the server in a run. -/
def Sys.outs (K : Codec) (s : Sys) (es : List SEv) : List Out := (s.srv.run (s.srvHist K es)).2

/-- A request as its client transmitted it: `payload` is the message tree of the options, if any. -/
structure Asked where
  id : Int
  action : String
  returnType : String
  ser : Ser
  payload : Option Wire

/-- The message of a request. -/
def Asked.parts (K : Codec) (q : Asked) : List Bytes :=
  [K.num q.id, K.text q.action, K.text q.returnType, K.text q.ser.name, (q.payload.map (K.tree q.ser)).getD []]

/-- The requests transmitted in a client's history, oldest first. -/
def Cli.asked (K : Codec) (c : Cli) : List CEv → List Asked
  | [] => []
  | e :: es =>
    (match e with
      | .send E t a o rt sy =>
        match (c.send K E t a o rt sy).2.2.1 with
        | some _ => [⟨if sy = "off" then -1 else c.nextId, a, rt, c.ser, o.bind fun v => (c.ser.dumps E t v).2.toOption⟩]
        | none => []
      | _ => []) ++ (c.step K e).1.asked K es

/-- The requests client `n` transmitted in a run. -/
def Sys.asked (K : Codec) (s : Sys) (es : List SEv) (n : Bytes) : List Asked := (s.cli n).asked K (s.cliHist K n es)

/-- The requests of client `n` the server started: id, action, serializer. -/
def started (n : Bytes) (os : List Out) : List (Int × String × String) :=
  os.filterMap fun o => match o with
    | .accept c k a st => if c = n then some (k, a, st) else none
    | _ => none

/-- The process the server runs in reads what clients write, as far as the formats have bytes for it. That real bytes are so is C104. -/
structure Fits (K : Codec) (H : Heap) : Prop where
  num : ∀ i, H.intOf (K.num i) = some i
  text : ∀ s, H.utf8 (K.text s) = some s
  tree : ∀ ser w, ser.Writable w → K.tree ser w ≠ [] ∧ H.parse ser (K.tree ser w) = .ok w

/-- The result `v` of a request with return type `rt` is to be sent by value. -/
def SentByValue (tys : List Ty) (rt : String) (v : Val) : Prop := rt ≠ "proxy" ∧ (rt = "auto" → v.isinstance tys = true)

/-- `Reports L c k H R ser s t rt r f`: a future in state `f` tells truly that request `k` of client `c`, with return type `rt`, had the
outcome `r`. The server is `s`, its table after the reply `t`, its process `H`; the client's process is `R`. -/
inductive Reports (L : Lib) (c : Bytes) (k : Int) (H : Heap) (R : RecvEnv) (ser : Ser) (s : Srv) (t : Refs) (rt : String) : Except Exc Val → Fut → Prop where
  /-- an exception of this class, with the transcript (whose first line tells client and request) -/
  | raised (x : Exc) : H.utf8 c ≠ none → Reports L c k H R ser s t rt (.error x) (.remote (.str x.name) (.list ((H.transcript c k).map .str)))
  /-- this value, as the serializer carries it -/
  | value (v rv : Val) : SentByValue s.tys rt v →
      (ser.Sendable R v → ser.Arrives L s.tys (ByProxy (s.sendEnv H) R t) v rv) → Reports L c k H R ser s t rt (.ok v) (.value rv)
  /-- a proxy resolving to this very object -/
  | proxy (v : Val) (p : Proxy) : ¬ SentByValue s.tys rt v → p.addr = s.addr → p.attrs = [] → t.lookup p.oid = .ok (H.ident v) →
      Reports L c k H R ser s t rt (.ok v) (.value (.proxy p))
  /-- a value that cannot be serialized, with the class of the serializer's exception -/
  | unserializable (v : Val) (x : Exc) : H.utf8 c ≠ none → SentByValue s.tys rt v → ¬ ser.Serializable L s.tys v →
      Reports L c k H R ser s t rt (.ok v) (.remote (.str x.name) (.list ((H.transcript c k).map .str)))

/-- The heap of a server's step, if it is one. -/
def SEv.heap? : SEv → Option Heap
  | .serve _ H => some H
  | .ret H _ => some H
  | .publish H _ _ => some H
  | .mkProxy H _ _ => some H
  | _ => none

/-- Reading the message `parts` of client `c` starts user code for request `k` with return type `rt`. -/
def Begins (s : Srv) (H : Heap) (c : Bytes) (parts : List Bytes) (k : Int) (rt : String) (task : Task) : Prop :=
  ∃ a st b ser opts o, readOne H (c :: parts) = .ok (c, ⟨k, a, rt, st, b⟩) ∧ s.Serving ∧ serOf st = some ser ∧
    Msg.payload H s ⟨k, a, rt, st, b⟩ ser = .ok opts ∧
    Srv.action H { s with clients := s.clients.set c st } c a opts = .running { s with clients := s.clients.set c st } o task

/-- `Execution srv hist c parts k rt H r s1 s2`: in the history `hist` of server `srv`, the message `parts` of client `c`
is read and carried out as request `k` with return type `rt`; this ends in the process state `H` with result `r`, server
state `s1`, and state `s2` once it is reported. Either it ends in the step that reads the message, or it starts user
code, which stays on the stack until it ends. -/
inductive Execution (srv : Srv) (hist : List Ev) (c : Bytes) (parts : List Bytes) (k : Int) (rt : String) :
    Heap → Except Exc Val → Srv → Srv → Prop where
  | atOnce {pre post H r s1} : hist = pre ++ .recv H (c :: parts) :: post →
      Completes (srv.run pre).1 (.recv H (c :: parts)) c k rt r s1 →
      Execution srv hist c parts k rt H r s1 (srv.run (pre ++ [.recv H (c :: parts)])).1
  | later {pre mid post H H' r0 task} : hist = pre ++ .recv H (c :: parts) :: (mid ++ .ret H' r0 :: post) →
      Begins (srv.run pre).1 H c parts k rt task →
      (∀ a b, mid = a ++ b → ∃ l, (srv.run (pre ++ .recv H (c :: parts) :: a)).1.stack = l ++ ⟨c, k, rt, task⟩ :: (srv.run pre).1.stack) →
      (srv.run (pre ++ .recv H (c :: parts) :: mid)).1.stack = ⟨c, k, rt, task⟩ :: (srv.run pre).1.stack →
      Execution srv hist c parts k rt H' (task.result H' r0)
        { (srv.run (pre ++ .recv H (c :: parts) :: mid)).1 with stack := (srv.run pre).1.stack }
        (srv.run (pre ++ .recv H (c :: parts) :: (mid ++ [.ret H' r0]))).1

/-- A future is done by a reply. -/
def Fut.answered : Fut → Prop
  | .value _ => True
  | .remote _ _ => True
  | _ => False

/-- What is visible of a request when it starts. -/
def Asked.brief (q : Asked) : Int × String × String := (q.id, q.action, q.ser.name)

/-- The circumstances of a run of a system: all processes have the libraries `L`; the server's process reads what clients
write; clients do not read their messages with the server's own unwrapping (they are not in its thread); the server was
not told to serialize fewer types than the default ones; `id()` is that of live objects; the options of requests are within
the sizes of the formats. -/
structure World (K : Codec) (L : Lib) (idOf : Obj → Nat) (srv : Srv) (sers : Bytes → Ser) (es : List SEv) : Prop where
  laws : L.Laws
  types : ∀ ty ∈ defaultTypes, ty ∈ srv.tys
  fits : ∀ e ∈ es, ∀ H, e.heap? = some H → Fits K H
  lib : ∀ e ∈ es, ∀ H, e.heap? = some H → H.lib = L
  read : ∀ n P junk, .deliver n P junk ∈ es → P.recv.lib = L ∧ ∀ a u, P.recv.server = some (a, u) → a ≠ srv.addr
  live : LiveRun idOf srv ((Sys.init srv sers).srvHist K es)
  small : ∀ n E t a o rt sy w, .request n E t a (some o) rt sy ∈ es → ((sers n).dumps E t o).2 = .ok w → (sers n).Small w

end Verif
