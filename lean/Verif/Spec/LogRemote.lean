import Verif.Model.LogRemote
/-!
# Vocabulary for C55, C56 and C74–C76
-/
namespace Verif

/-- Values JSON restores exactly, nested less than `n` deep: None, bool, int, float, str, lists of such values, dicts from distinct strings to such
values. -/
inductive PlainN : Nat → Val → Prop where
  | none {n} : PlainN (n + 1) .none
  | bool {n b} : PlainN (n + 1) (.bool b)
  | int {n i} : PlainN (n + 1) (.int i)
  | float {n f} : PlainN (n + 1) (.float f)
  | str {n s} : PlainN (n + 1) (.str s)
  | list {n l} (h : ∀ v ∈ l, PlainN n v) : PlainN (n + 1) (.list l)
  | dict {n} {d : Fields} (hd : d.WF) (h : ∀ k v, (k, v) ∈ d → PlainN n v) : PlainN (n + 1) (Fields.val d)

/-- Lists or tuples at least `n` deep, along their first items. -/
inductive DeepVal : Nat → Val → Prop where
  | any {v} : DeepVal 0 v
  | list {n v l} (h : DeepVal n v) : DeepVal (n + 1) (.list (v :: l))
  | tuple {n v l} (h : DeepVal n v) : DeepVal (n + 1) (.tuple (v :: l))

/-- The records given to a sender. -/
def handledOf (es : List SenderEv) : List Fields := es.filterMap fun e => match e with | .handle r => some r | _ => none

/-- The records sent. -/
def sentOf (os : List SenderOut) : List Fields := os.filterMap fun o => match o with | .sent _ r _ => some r | _ => none

/-- Only logging, the thread of the sender and changes of names: nobody connects or closes the sender. -/
def Calm (es : List SenderEv) : Prop := ∀ e ∈ es, match e with | .handle _ | .go | .rename _ => True | _ => False

/-- The message for a record, if it can be formatted and serialized with these names. -/
def messageFor (L : Lib) (fmt : Val → Val → Except Exc Val) (N : LogNames) (r : Fields) : Except Exc Wire :=
  match forwardFields fmt N r with
  | .error e => .error e
  | .ok d => plainDumps L jsonDepth (Fields.val d)

/-- A record that can be formatted and serialized whatever the names are. -/
def Forwardable (L : Lib) (fmt : Val → Val → Except Exc Val) (r : Fields) : Prop := ∀ N, ∃ w, messageFor L fmt N r = .ok w

/-- The names a process had during a history that began with the names `N`. -/
def namesOf (N : LogNames) (es : List SenderEv) : List LogNames := N :: es.filterMap fun e => match e with | .rename M => some M | _ => none

/-- The messages sent. -/
def wiresOf (os : List SenderOut) : List Wire := os.filterMap fun o => match o with | .sent _ _ w => some w | _ => none

/-- Same length, and related item by item. -/
inductive Zip {α β : Type} (R : α → β → Prop) : List α → List β → Prop where
  | nil : Zip R [] []
  | cons {a b as bs} : R a b → Zip R as bs → Zip R (a :: as) (b :: bs)

/-- `d` is the record that must arrive for a record `r` logged in a process with the names `N`: the message formatted, no arguments, the names of
host, process and thread added, everything else as it was. -/
structure Arrived (fmt : Val → Val → Except Exc Val) (N : LogNames) (r d : Fields) : Prop where
  same : ∀ k v, k ≠ "args" → k ≠ "msg" → k ≠ "process_name" → k ≠ "thread_name" → k ≠ "host_name" → r.get? k = some v → d.get? k = some v
  args : d.get? "args" = some (.tuple [])
  plain : ∀ v, r.get? "args" = some (.tuple []) → r.get? "msg" = some v → d.get? "msg" = some v
  msg : ∀ args n msg m, r.get? "args" = some args → args.pyLen = .ok (n + 1) → r.get? "msg" = some msg → fmt msg args = .ok m → d.get? "msg" = some m
  host : d.get? "host_name" = some (.str N.host)
  process : ∀ p, N.process = some p → d.get? "process_name" = some (.str p)
  thread : ∀ i t, r.get? "thread" = some (.int i) → N.threads.get? i = some t → d.get? "thread_name" = some (.str t)
  threadName : ∀ i v, r.get? "thread" = some (.int i) → N.threads.get? i = none → r.get? "threadName" = some v → d.get? "thread_name" = some v

/-- A record as the logging module makes it, with fields JSON can carry, and arguments that fit its message. -/
structure PlainRecord (fmt : Val → Val → Except Exc Val) (r : Fields) : Prop where
  wf : r.WF
  values : ∀ k v, r.get? k = some v → k ≠ "args" → PlainN 999 v
  thread : ∃ v, r.get? "thread" = some v
  threadName : ∃ v, r.get? "threadName" = some v
  fits : ∃ args n, r.get? "args" = some args ∧ args.pyLen = .ok n ∧ (n ≠ 0 → ∃ msg s, r.get? "msg" = some msg ∧ fmt msg args = .ok (.str s))

/-- The records a log server read, with the level its logger had. -/
def readsOf (os : List LogSrvOut) : List (Fields × Int) := os.filterMap fun o => match o with | .read r l => some (r, l) | _ => none

/-- The records it passed on. -/
def passedOf (os : List LogSrvOut) : List Fields := os.filterMap fun o => match o with | .handled r => some r | _ => none

/-- The messages that arrived. -/
def arrivedOf (es : List LogSrvEv) : List (Option Wire) := es.filterMap fun e => match e with | .arrive m => some m | _ => none

end Verif
