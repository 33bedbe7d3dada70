import Verif.Props.ServerMore
/-!
# C71: every action does what the request says

The requests are messages whose payload is a dict; the options and results are stated here without reference to
`Srv.action` or `Task.result`.
-/
namespace Verif
open Ex (lib laws heap srv msg self)

/-- **C71** A message of six parts is read as: sender, request id, action, return type, serializer, payload, in this
order, each decoded as it is; every other message is refused. -/
theorem C71_message_fields (H : Heap) (name rid action rt st opts : Bytes) (i : Int) (a r s : String)
    (h1 : H.intOf rid = some i) (h2 : H.utf8 action = some a) (h3 : H.utf8 rt = some r) (h4 : H.utf8 st = some s) :
    readOne H [name, rid, action, rt, st, opts] = .ok (name, ⟨i, a, r, s, opts⟩) := by
  simp [readOne, h1, h2, h3, h4]

/-- **C71** Any other message is refused: ValueError for another number of parts or an id that is no number, else UnicodeDecodeError. -/
theorem C71_message_refused (H : Heap) (parts : List Bytes) (h : ∀ name rid action rt st opts i a r s,
      parts = [name, rid, action, rt, st, opts] → H.intOf rid = some i → H.utf8 action = some a → H.utf8 rt = some r → H.utf8 st = some s → False) :
    readOne H parts = .error (if parts.length = 6 ∧ parts[1]?.bind H.intOf ≠ none then .unicodeError else .valueError) := by
  unfold readOne
  split
  · rename_i name rid action rt st opts
    cases h1 : H.intOf rid with
    | none => simp [h1]
    | some i =>
      dsimp only
      split
      · rename_i h2 h3 h4
        exact (h _ _ _ _ _ _ _ _ _ _ rfl h1 h2 h3 h4).elim
      · simp [h1]
  · rename_i hne
    rw [if_neg]
    rintro ⟨hl, _⟩
    match parts, hl with
    | [a, b, c, d, e, f], _ => exact hne _ _ _ _ _ _ rfl

/-- The server reads the message `parts` from `c` as request `k` for `action` with these options. -/
structure Asks (H : Heap) (s : Srv) (parts : List Bytes) (c : Bytes) (k : Int) (action rt st : String) (opts : Val) : Prop where
  serving : s.Serving
  name : H.utf8 c ≠ none
  msg : ∃ b ser, readOne H parts = .ok (c, ⟨k, action, rt, st, b⟩) ∧ serOf st = some ser ∧
    Msg.payload H s ⟨k, action, rt, st, b⟩ ser = .ok opts

theorem asks_running {H s parts c k a rt st opts s1 o task} (h : Asks H s parts c k a rt st opts)
    (ha : Srv.action H { s with clients := s.clients.set c st } c a opts = .running s1 o task) :
    s.step (.recv H parts) = ({ s1 with stack := ⟨c, k, rt, task⟩ :: s1.stack }, .accept c k a st :: o) := by
  obtain ⟨⟨h1, h2, h3⟩, hu, b, ser, hr, hs, hp⟩ := h
  have hstep : s.step (.recv H parts) = (let (s, o) := s.process H c ⟨k, a, rt, st, b⟩; (s, .accept c k a st :: o)) := by
    simp only [Srv.step, h1, h2, h3, hr, Bool.or_self, Bool.false_eq_true, Bool.true_eq_false, if_false]
  rw [hstep]
  rcases process_split H s c ⟨k, a, rt, st, b⟩ with ⟨e, h, h5⟩ | ⟨ser', cs, opts', h5, h6, h7, h8⟩
  · rcases h5 with h5 | h5 | ⟨ser', h5, h6⟩
    · rw [hs] at h5; simp at h5
    · exact absurd h5 hu
    · rw [hs] at h5; simp only [Option.some.injEq] at h5; subst h5
      rw [hp] at h6; simp at h6
  · rw [hs] at h5; simp only [Option.some.injEq] at h5; subst h5
    rw [hp] at h7; simp only [Except.ok.injEq] at h7; subst h7
    rcases h8 with ⟨s2, o2, r, h8, _⟩ | ⟨s2, o2, t2, h8, h9⟩
    · rw [ha] at h8; simp at h8
    · rw [ha] at h8; simp only [Started.running.injEq] at h8
      obtain ⟨rfl, rfl, rfl⟩ := h8
      rw [h9]

theorem asks_outcome {H s parts c k a rt st opts s1 o r} (h : Asks H s parts c k a rt st opts)
    (ha : Srv.action H { s with clients := s.clients.set c st } c a opts = .finished s1 o r) :
    Outcome s (.recv H parts) c k rt r s1 o := by
  obtain ⟨hs, hu, b, ser, hr, hser, hp⟩ := h
  exact ⟨a, st, b, ser, opts, hr, hs, hser, hu, hp, ha⟩

/-- The user code started ends with the result of the request: what it returns is the outcome, what it raises too. -/
def Task.Transparent (t : Task) : Prop := ∀ H r, t.result H r = r

/-- **C71** A call request invokes exactly the object, arguments and keyword arguments of its options, once, on behalf of
the caller; missing arguments are empty. Nothing else in the server changes except that the caller is remembered.
If the arguments are a list or tuple, or there are keywords, the outcome of the request is that of the
invocation. -/
theorem C71_call {H s parts c k rt st d f args kw} (h : Asks H s parts c k "call_obj" rt st (.dict d))
    (hf : lookupStr d "obj" = some f) (hargs : (lookupStr d "args").getD (.tuple []) = args)
    (hkw : (lookupStr d "kwargs").getD (.dict []) = .dict kw) :
    ∃ task, s.step (.recv H parts) =
        ({ s with clients := s.clients.set c st, stack := ⟨c, k, rt, task⟩ :: s.stack },
         [.accept c k "call_obj" st, .invoke f args (.dict kw)]) ∧
      (((∃ l, args = .list l ∨ args = .tuple l) ∨ kw ≠ []) → task.Transparent) := by
  by_cases hn : kw = []
  · subst hn
    refine ⟨.call (sliceMask H args), ?_, ?_⟩
    · refine asks_running (s1 := { s with clients := s.clients.set c st }) h ?_
      simp [Srv.action, optGet, optGetD, hf, hargs, hkw, bind, Except.bind, pyLen, pure, Except.pure]
    · rintro (⟨l, rfl | rfl⟩ | h') H' r
      · cases r <;> rfl
      · cases r <;> rfl
      · exact absurd rfl h'
  · refine ⟨.callKw, ?_, ?_⟩
    · refine asks_running (s1 := { s with clients := s.clients.set c st }) h ?_
      simp [Srv.action, optGet, optGetD, hf, hargs, hkw, bind, Except.bind, pyLen, pure, Except.pure, hn]
    · intro _ H' r; cases r <;> rfl

/-- **C71** When the user code of a request ends, its result is the outcome of the request, with the caller, id and
return type of the request. -/
theorem C71_call_ends {s : Srv} {c k rt task stk} (hs : s.stack = ⟨c, k, rt, task⟩ :: stk) (ht : task.Transparent) (H : Heap) (r : Except Exc Val) :
    Outcome s (.ret H r) c k rt r { s with stack := stk } [] :=
  ⟨task, stk, hs, (ht H r).symm, rfl, rfl⟩

/-- **C71** A call without keyword arguments whose arguments are neither a list nor a tuple: what the called code returns is still the outcome, but when it raises (or cannot
be called with these arguments) the log call of line 357 comes first. With None for arguments the outcome is then TypeError; otherwise what slicing the arguments
raises, if it does. -/
theorem C71_call_odd {H s parts c k rt st d f args} (h : Asks H s parts c k "call_obj" rt st (.dict d))
    (hf : lookupStr d "obj" = some f) (hargs : lookupStr d "args" = some args) (hkw : (lookupStr d "kwargs").getD (.dict []) = .dict [])
    (hno : ∀ l, args ≠ .list l ∧ args ≠ .tuple l) :
    ∃ task, s.step (.recv H parts) =
        ({ s with clients := s.clients.set c st, stack := ⟨c, k, rt, task⟩ :: s.stack },
         [.accept c k "call_obj" st, .invoke f args (.dict [])]) ∧
      (∀ H' v, task.result H' (.ok v) = .ok v) ∧
      (args = .none → ∀ H' e, task.result H' (.error e) = .error .typeError) ∧
      (args ≠ .none → ∀ e', H.slice args = .error e' → ∀ H' e, task.result H' (.error e) = .error e') ∧
      (args ≠ .none → H.slice args = .ok () → ∀ H' e, task.result H' (.error e) = .error e) := by
  have hm : args ≠ .none → sliceMask H args = match H.slice args with | .ok _ => none | .error e => some e := by
    intro hn
    cases args <;> first | rfl | exact absurd rfl hn | exact absurd rfl (hno _).1 | exact absurd rfl (hno _).2
  refine ⟨.call (sliceMask H args), ?_, ?_, ?_, ?_, ?_⟩
  · refine asks_running (s1 := { s with clients := s.clients.set c st }) h ?_
    simp [Srv.action, optGet, optGetD, hf, hargs, hkw, bind, Except.bind, pyLen, pure, Except.pure]
  · intro H' v; cases sliceMask H args <;> rfl
  · rintro rfl H' e; rfl
  · intro hn e' he H' e; rw [hm hn, he]; rfl
  · intro hn he H' e; rw [hm hn, he]; rfl

/-- **C71** A call request without object fails with KeyError. -/
theorem C71_call_nothing {H s parts c k rt st d} (h : Asks H s parts c k "call_obj" rt st (.dict d))
    (hf : lookupStr d "obj" = none) : Outcome s (.recv H parts) c k rt (.error .keyError) { s with clients := s.clients.set c st } [] :=
  asks_outcome h (by simp [Srv.action, optGet, hf, bind, Except.bind])

/-- **C71** `call_obj` of a client with its default `kwargs=None` always fails with TypeError, without calling
anything. -/
theorem C71_call_default_kwargs {H s parts c k rt st d f} (h : Asks H s parts c k "call_obj" rt st (.dict d))
    (hf : lookupStr d "obj" = some f) (hkw : lookupStr d "kwargs" = some .none) :
    Outcome s (.recv H parts) c k rt (.error .typeError) { s with clients := s.clients.set c st } [] :=
  asks_outcome h (by simp [Srv.action, optGet, optGetD, hf, hkw, bind, Except.bind, pyLen])

/-- **C71** The outcome of `get_obj` is the object named in the options. -/
theorem C71_get_obj {H s parts c k rt st d f} (h : Asks H s parts c k "get_obj" rt st (.dict d))
    (hf : lookupStr d "obj" = some f) : Outcome s (.recv H parts) c k rt (.ok f) { s with clients := s.clients.set c st } [] :=
  asks_outcome h (by simp [Srv.action, optGet, hf])

/-- **C71** The outcome of `set_item` is None, after publishing the object under the name. -/
theorem C71_set_item {H s parts c k rt st d n v key} (h : Asks H s parts c k "set_item" rt st (.dict d))
    (hn : lookupStr d "name" = some n) (hv : lookupStr d "obj" = some v) (hkey : keyOf H n = .ok key) :
    Outcome s (.recv H parts) c k rt (.ok .none) { s with clients := s.clients.set c st, ns := s.ns.set key v } [] :=
  asks_outcome h (by simp [Srv.action, optGet, hn, hv, hkey, bind, Except.bind, pure, Except.pure])

/-- **C71** A delete request for a reference the table holds takes exactly this reference out (and with the last one the
object); its outcome is None. A delete request for any other pair of numbers fails with KeyError and leaves the
table alone. -/
theorem C71_delete {H s parts c k rt st d} {oid rid : Nat} (h : Asks H s parts c k "delete" rt st (.dict d))
    (h1 : lookupStr d "obj_id" = some (.int oid)) (h2 : lookupStr d "ref_id" = some (.int rid)) :
    (∀ o rs, s.refs.refs.get? oid = some (o, rs) → rid ∈ rs →
      ∃ t, Outcome s (.recv H parts) c k rt (.ok .none) { s with clients := s.clients.set c st, refs := t } [] ∧
        (∀ oid', oid' ≠ oid → t.refs.get? oid' = s.refs.refs.get? oid') ∧
        t.refs.get? oid = (if rs.erase rid = [] then none else some (o, rs.erase rid))) ∧
    ((∀ o rs, s.refs.refs.get? oid = some (o, rs) → rid ∉ rs) →
      Outcome s (.recv H parts) c k rt (.error .keyError) { s with clients := s.clients.set c st } []) := by
  constructor
  · intro o rs hg hm
    by_cases he : rs.erase rid = []
    · refine ⟨{ s.refs with refs := (s.refs.refs.set oid (o, rs.erase rid)).erase oid, idMap := s.refs.idMap.erase (H.idOf o) }, ?_, ?_, ?_⟩
      · refine asks_outcome h ?_
        simp [Srv.action, Srv.deleteAction, optGet, h1, h2, bind, Except.bind, numKeyOf, hg, Refs.delete, hm, he]
      · intro oid' hne
        simp [Dict.get?_erase, Dict.get?_set, Ne.symm hne]
      · simp [Dict.get?_erase, he]
    · refine ⟨{ s.refs with refs := s.refs.refs.set oid (o, rs.erase rid) }, ?_, ?_, ?_⟩
      · refine asks_outcome h ?_
        have : ¬ rs.length - 1 = 0 := by rw [← List.length_erase_of_mem hm]; simpa using he
        simp [Srv.action, Srv.deleteAction, optGet, h1, h2, bind, Except.bind, numKeyOf, hg, Refs.delete, hm, this, he]
      · intro oid' hne
        simp [Dict.get?_set, Ne.symm hne]
      · simp [he]
  · intro hno
    refine asks_outcome h ?_
    cases hg : s.refs.refs.get? oid with
    | none => simp [Srv.action, Srv.deleteAction, optGet, h1, bind, Except.bind, numKeyOf, hg]
    | some x =>
      obtain ⟨o, rs⟩ := x
      have hm := hno o rs hg
      simp [Srv.action, Srv.deleteAction, optGet, h1, h2, bind, Except.bind, numKeyOf, hg, Refs.delete, hm]

/-- **C71** The outcome of `ping` is 'pong', whatever the options. -/
theorem C71_ping {H s parts c k rt st opts} (h : Asks H s parts c k "ping" rt st opts) :
    Outcome s (.recv H parts) c k rt (.ok (.str "pong")) { s with clients := s.clients.set c st } [] :=
  asks_outcome h (by simp [Srv.action])

/-- **C71** The outcome of an action that is none of the eight is ValueError. -/
theorem C71_unknown {H s parts c k a rt st opts} (h : Asks H s parts c k a rt st opts)
    (ha : a ∉ ["call_obj", "get_obj", "delete", "get_item", "set_item", "import", "ping", "close"]) :
    Outcome s (.recv H parts) c k rt (.error .valueError) { s with clients := s.clients.set c st } [] := by
  refine asks_outcome h ?_
  unfold Srv.action
  simp only [List.mem_cons, List.not_mem_nil, or_false, not_or] at ha
  obtain ⟨h1, h2, h3, h4, h5, h6, h7, h8⟩ := ha
  split <;> first | contradiction | rfl

/-- **C71** An import request imports exactly the module named; for a module `p.p1. … .pn` the outcome is what the attributes
`p1, …, pn` lead to, starting from what `__import__` returned. -/
theorem C71_import {H s parts c k rt st d p ps} (h : Asks H s parts c k "import" rt st (.dict d))
    (hm : lookupStr d "module" = some (.str (String.intercalate "." (p :: ps)))) (hfl : lookupStr d "fromlist" = none)
    (hp : p ≠ "") (hdots : ∀ q ∈ p :: ps, '.' ∉ q.toList) :
    ∃ task, s.step (.recv H parts) =
        ({ s with clients := s.clients.set c st, stack := ⟨c, k, rt, task⟩ :: s.stack },
         [.accept c k "import" st, .importing (String.intercalate "." (p :: ps)) (.list [])]) ∧
      (∀ H' e, task.result H' (.error e) = .error e) ∧
      (∀ H' mod x, task.result H' (.ok mod) = .ok x ↔ AttrChain H'.ga mod ps x) ∧
      (∀ H' mod e, task.result H' (.ok mod) = .error e ↔ AttrRaises H'.ga mod ps e) := by
  have hpath : importPath (String.intercalate "." (p :: ps)) = ps := by
    unfold importPath
    have hd : (String.intercalate "." (p :: ps)).toList.dropWhile (· = '.') = (String.intercalate "." (p :: ps)).toList := by
      rw [String.toList_intercalate]
      have hne : p.toList ≠ [] := by simpa using hp
      have hnd := hdots p (by simp)
      cases hpl : p.toList with
      | nil => exact absurd hpl hne
      | cons a l =>
        have ha : a ≠ '.' := by intro h; rw [hpl, h] at hnd; simp at hnd
        cases ps with
        | nil => simp [hpl, ha]
        | cons q qs => simp [hpl, ha]
    rw [hd, String.toList_intercalate]
    rw [show ".".toList = ['.'] from rfl, List.splitOn_intercalate]
    · simp [Function.comp_def, String.ofList_toList]
    · intro l hl
      simp only [List.mem_map] at hl
      obtain ⟨q, hq, rfl⟩ := hl
      exact hdots q hq
    · simp
  refine ⟨.imp (String.intercalate "." (p :: ps)) (.list []), ?_, ?_, ?_, ?_⟩
  · refine asks_running (s1 := { s with clients := s.clients.set c st }) h ?_
    simp [Srv.action, optGet, optGetD, hm, hfl, bind, Except.bind, pure, Except.pure, Val.text?, Val.core]
  · intro H' e; rfl
  · intro H' mod x
    simp only [Task.result, pyLen, List.length_nil, hpath]
    exact getattrs_ok_iff
  · intro H' mod e
    simp only [Task.result, pyLen, List.length_nil, hpath]
    exact getattrs_error_iff

/-- **C71** An import request with names to import from the module asks Python to import them, but then fails with what `mod.__getattr__` raises: AttributeError
for modules that do not define `__getattr__`. If the module defines it the outcome is a `map` object. -/
theorem C71_import_from {H s parts c k rt st d m l} (h : Asks H s parts c k "import" rt st (.dict d))
    (hm : lookupStr d "module" = some (.str m)) (hfl : lookupStr d "fromlist" = some (.list l)) (hl : l ≠ []) :
    ∃ task, s.step (.recv H parts) =
        ({ s with clients := s.clients.set c st, stack := ⟨c, k, rt, task⟩ :: s.stack }, [.accept c k "import" st, .importing m (.list l)]) ∧
      (∀ H' e, task.result H' (.error e) = .error e) ∧
      (∀ H' mod e, H'.ga mod "__getattr__" = .error e → task.result H' (.ok mod) = .error e) ∧
      (∀ H' mod f, H'.ga mod "__getattr__" = .ok f → task.result H' (.ok mod) = .ok H'.mapObj) := by
  obtain ⟨n, hn⟩ : ∃ n, l.length = n + 1 := by cases l with | nil => exact absurd rfl hl | cons a r => exact ⟨_, rfl⟩
  refine ⟨.imp m (.list l), ?_, fun _ _ => rfl, fun H' mod e he => ?_, fun H' mod f hf => ?_⟩
  · refine asks_running (s1 := { s with clients := s.clients.set c st }) h ?_
    simp [Srv.action, optGet, optGetD, hm, hfl, bind, Except.bind, pure, Except.pure, Val.text?, Val.core]
  · simp only [Task.result, pyLen, hn, he]
  · simp only [Task.result, pyLen, hn, hf]

/-- **C71** An import request whose module is no text fails with TypeError, without importing anything. -/
theorem C71_import_no_text {H s parts c k rt st d m} (h : Asks H s parts c k "import" rt st (.dict d))
    (hm : lookupStr d "module" = some m) (ht : m.text? = none) :
    Outcome s (.recv H parts) c k rt (.error .typeError) { s with clients := s.clients.set c st } [] :=
  asks_outcome h (by simp [Srv.action, optGet, optGetD, hm, ht, bind, Except.bind, pure, Except.pure])

/-- **C71** A request without options, for an action that needs them, fails with TypeError and changes nothing. -/
theorem C71_no_options {H s parts c k a rt st} (h : Asks H s parts c k a rt st .none)
    (ha : a ∈ ["call_obj", "get_obj", "delete", "get_item", "set_item", "import"]) :
    Outcome s (.recv H parts) c k rt (.error .typeError) { s with clients := s.clients.set c st } [] := by
  refine asks_outcome h ?_
  simp only [List.mem_cons, List.not_mem_nil, or_false] at ha
  rcases ha with rfl | rfl | rfl | rfl | rfl | rfl <;> simp [Srv.action, Srv.deleteAction, optGet, bind, Except.bind]

/-- **C71** A request with options that lack what the action needs first fails with KeyError and changes nothing. -/
theorem C71_missing_option {H s parts c k a rt st d} (h : Asks H s parts c k a rt st (.dict d)) (key : String)
    (ha : (a, key) ∈ [("call_obj", "obj"), ("get_obj", "obj"), ("delete", "obj_id"), ("get_item", "name"), ("set_item", "obj"), ("import", "module")])
    (hk : lookupStr d key = none) : Outcome s (.recv H parts) c k rt (.error .keyError) { s with clients := s.clients.set c st } [] := by
  refine asks_outcome h ?_
  simp only [List.mem_cons, List.not_mem_nil, or_false, Prod.mk.injEq] at ha
  rcases ha with ⟨rfl, rfl⟩ | ⟨rfl, rfl⟩ | ⟨rfl, rfl⟩ | ⟨rfl, rfl⟩ | ⟨rfl, rfl⟩ | ⟨rfl, rfl⟩ <;>
    simp [Srv.action, Srv.deleteAction, optGet, hk, bind, Except.bind]

/-- **C71** Options that are another value than a dict or None: `get_obj` has the outcome of indexing the value. -/
theorem C71_get_obj_foreign {H s parts c k rt st v} (h : Asks H s parts c k "get_obj" rt st v) (h1 : ∀ d, v ≠ .dict d) (h2 : v ≠ .none) :
    Outcome s (.recv H parts) c k rt (H.getitem v "obj") { s with clients := s.clients.set c st } [] := by
  refine asks_outcome h ?_
  simp only [Srv.action]
  cases v <;> simp_all [optGet]

/-! ## Concrete cases -/

/-- a call of the object 5 with arguments [1] -/
example : Asks heap srv [[65], [1], [13], [20], [31], [3]] [65] 1 "call_obj" "auto" "json"
    (.dict [(.str "obj", .int 5), (.str "args", .list [.int 1]), (.str "kwargs", .dict [])]) :=
  ⟨⟨rfl, rfl, rfl⟩, by decide, [3], .json, by decide, rfl, rfl⟩
example : (srv.step (.recv heap [[65], [1], [13], [20], [31], [3]])).2 = [.accept [65] 1 "call_obj" "json", .invoke (.int 5) (.list [.int 1]) (.dict [])] := rfl
/-- a ping without payload -/
example : Asks heap srv [[65], [1], [14], [20], [30], []] [65] 1 "ping" "auto" "msgpack" .none :=
  ⟨⟨rfl, rfl, rfl⟩, by decide, [], .msgpack, by decide, rfl, rfl⟩
/-- a get_obj without options -/
example : ∃ parts, Asks heap srv parts [65] 1 "call_obj" "auto" "msgpack" .none :=
  ⟨[[65], [1], [13], [20], [30], []], ⟨rfl, rfl, rfl⟩, by decide, [], .msgpack, by decide, rfl, rfl⟩
/-- an import -/
example : Asks heap srv [[66], [1], [18], [20], [30], [5]] [66] 1 "import" "auto" "msgpack" (.dict [(.str "module", .str (String.intercalate "." ["os", "path"]))]) :=
  ⟨⟨rfl, rfl, rfl⟩, by decide, [5], .msgpack, by decide, rfl, rfl⟩

namespace Ex

/-! ## The theorems on these cases -/

example := C71_message_fields heap [65] [1] [13] [20] [31] [3] 1 "call_obj" "auto" "json" rfl rfl rfl rfl
/-- A message with five parts, and one whose action is no text. -/
example : readOne heap [[65], [1], [13], [20], [31]] = .error .valueError :=
  C71_message_refused heap [[65], [1], [13], [20], [31]] (by simp)
example : readOne heap [[65], [1], [200], [20], [31], [3]] = .error .unicodeError :=
  C71_message_refused heap [[65], [1], [200], [20], [31], [3]] (by
    intro name rid action rt st opts i a r s h h1 h2
    simp only [List.cons.injEq] at h
    obtain ⟨-, -, rfl, -⟩ := h
    cases h2)

/-- A process where every payload is `w`. -/
def heapOf (w : Wire) : Heap := { heap with parse := fun _ _ => .ok w }
/-- Client A asks for action `a`, written `b`, with options `v`. -/
theorem asksOf {b : UInt8} {a : String} {w : Wire} {v : Val} (h1 : (heapOf w).utf8 [b] = some a) (h2 : Msg.payload (heapOf w) srv ⟨1, a, "auto", "msgpack", [1]⟩ .msgpack = .ok v) :
    Asks (heapOf w) srv [[65], [1], [b], [20], [30], [1]] [65] 1 a "auto" "msgpack" v :=
  ⟨⟨rfl, rfl, rfl⟩, by simp [heapOf, heap, utf8], [1], .msgpack, C71_message_fields _ _ _ _ _ _ _ _ _ _ _ rfl h1 rfl rfl, rfl, h2⟩

example := C71_call (f := .int 5) (args := .list [.int 1]) (kw := [])
  (asksOf (b := 13) (w := .map [(.str "obj", .int 5), (.str "args", .arr [.int 1])]) rfl rfl) rfl rfl rfl
example := C71_call_odd (f := .int 5) (args := .none)
  (asksOf (b := 13) (w := .map [(.str "obj", .int 5), (.str "args", .nil)]) rfl rfl) rfl rfl rfl (by simp)
example := C71_call_odd (f := .int 5) (args := .dict [(.str "a", .int 1)])
  (asksOf (b := 13) (w := .map [(.str "obj", .int 5), (.str "args", .map [(.str "a", .int 1)])]) rfl rfl) rfl rfl rfl (by simp)
example := C71_call_ends (s := { srv with stack := [⟨[65], 1, "auto", .call none⟩] }) (stk := []) rfl (fun _ r => by cases r <;> rfl) heap (.ok (.int 3))
example := C71_call_nothing (asksOf (b := 13) (w := .map [(.str "args", .arr [.int 1])]) rfl rfl) rfl
example := C71_call_default_kwargs (f := .int 5) (asksOf (b := 13) (w := .map [(.str "obj", .int 5), (.str "kwargs", .nil)]) rfl rfl) rfl rfl
example := C71_get_obj (f := .int 5) (asksOf (b := 16) (w := .map [(.str "obj", .int 5)]) rfl rfl) rfl
example := C71_set_item (n := .str "x") (v := .list [.int 5]) (key := .str "x") (asksOf (b := 11) (w := .map [(.str "name", .str "x"), (.str "obj", .arr [.int 5])]) rfl rfl) rfl rfl rfl
/-- A client that never got a proxy tries to delete one. -/
example := (C71_delete (oid := 0) (rid := 0) (asksOf (b := 17) (w := .map [(.str "obj_id", .int 0), (.str "ref_id", .int 0)]) rfl rfl) rfl rfl).2 (fun _ _ h => by cases h)
/-- The server holds object 7 under two references, one of which is deleted. -/
def srvRefs : Srv := { srv with refs := ⟨1, 2, [(0, (7, [0, 1]))], [(1007, 0)]⟩ }
example := (C71_delete (H := heap) (s := srvRefs) (parts := [[65], [1], [17], [20], [30], [4]]) (c := [65]) (k := 1) (rt := "auto") (st := "msgpack")
  (d := [(.str "obj_id", .int 0), (.str "ref_id", .int 0)]) (oid := 0) (rid := 0)
  ⟨⟨rfl, rfl, rfl⟩, by decide, [4], .msgpack, by decide, rfl, rfl⟩ rfl rfl).1 7 [0, 1] rfl (by decide)
example := C71_ping (asksOf (b := 14) (w := .nil) rfl rfl)
example := C71_unknown (asksOf (b := 15) (w := .nil) rfl rfl) (by decide)
example := C71_import (p := "os") (ps := ["path"]) (asksOf (b := 18) (w := .map [(.str "module", .str (String.intercalate "." ["os", "path"]))]) rfl rfl) rfl rfl (by decide) (by decide)
example := C71_import_from (m := "os.path") (l := [.str "join"]) (asksOf (b := 18) (w := .map [(.str "module", .str "os.path"), (.str "fromlist", .arr [.str "join"])]) rfl rfl) rfl rfl (by simp)
example := C71_import_no_text (m := .int 3) (asksOf (b := 18) (w := .map [(.str "module", .int 3)]) rfl rfl) rfl rfl
example := C71_no_options (asksOf (b := 16) (w := .nil) rfl rfl) (by decide)
example := C71_missing_option (asksOf (b := 11) (w := .map [(.str "name", .str "x")]) rfl rfl) "obj" (by decide) rfl
example := C71_get_obj_foreign (v := .list [.int 3]) (asksOf (b := 16) (w := .arr [.int 3]) rfl rfl) (by simp) (by simp)

end Ex

end Verif
