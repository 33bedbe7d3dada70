import Verif.Props.SerializerExample
import Verif.Spec.Server
/-! # A concrete server process, used to show that hypotheses can be met -/
namespace Verif.Ex

/-- Names used in the example messages, by their (abbreviated) bytes. -/
def utf8 (b : Bytes) : Option String :=
  match b with
  | [65] => some "A"
  | [66] => some "B"
  | [10] => some "get_item"
  | [11] => some "set_item"
  | [12] => some "close"
  | [13] => some "call_obj"
  | [14] => some "ping"
  | [15] => some "nonsense"
  | [16] => some "get_obj"
  | [17] => some "delete"
  | [18] => some "import"
  | [20] => some "auto"
  | [21] => some "proxy"
  | [22] => some "value"
  | [30] => some "msgpack"
  | [31] => some "json"
  | [32] => some "xml"
  | _ => none

/-- Request ids: `[n]` is `n`, `[0, n]` is `-n`. -/
def intOf (b : Bytes) : Option Int :=
  match b with
  | [n] => some n.toNat
  | [0, n] => some (-n.toNat)
  | _ => none

/-- Payloads. -/
def parse (_ : Ser) (b : Bytes) : Except Exc Wire :=
  match b with
  | [1] => .ok (.map [(.str "name", .str "x")])
  | [2] => .ok (.map [(.str "name", .str "x"), (.str "obj", .int 5)])
  | [3] => .ok (.map [(.str "obj", .int 5), (.str "args", .arr [.int 1]), (.str "kwargs", .map [])])
  | [4] => .ok (.map [(.str "obj_id", .int 0), (.str "ref_id", .int 0)])
  | [5] => .ok (.map [(.str "module", .str "os.path")])
  | _ => .error .valueError

/-- The process of server A. -/
def heap : Heap where
  lib := lib
  utf8 := utf8
  intOf := intOf
  parse := parse
  idOf := sendA.idOf
  ident := sendA.ident
  typeStr := sendA.typeStr
  view := view
  ga := ga
  hash _ := .error .typeError
  numKey _ := .ok none
  getitem _ _ := .error .typeError
  getdef _ _ _ := .error .attributeError
  len _ := .error .typeError
  slice _ := .error .typeError
  stackText := ["Stack"]
  tb := ["Traceback"]
  tbBad := false
  mapObj := .obj 99 []

/-- The server object itself. -/
def self : Val := .obj 1 [.user 0]

/-- Server A. -/
def srv : Srv := Srv.init "tcp://a:1" [] self

/-- A message. -/
def msg (caller : UInt8) (rid : Bytes) (action rt ser : UInt8) (opts : Bytes) : Ev :=
  .recv heap [[caller], rid, [action], [rt], [ser], opts]

theorem liveHeap (t : Refs) : LiveHeap heap t where
  sent u u' h := Nat.add_right_cancel h
  held _ _ _ _ u h := Nat.add_right_cancel h

end Verif.Ex
