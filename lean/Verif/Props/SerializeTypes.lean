import Verif.Proof.SerializeTypesJson
import Verif.Props.ServerExample
import Verif.Props.Serializer
import Verif.Props.Client
/-!
# C132: what a list of serialize types means

`RPCClient` and `RPCServer` take a tuple `serialize_types`. By its documentation (/repo/teleprox/client.py:53-58) objects of
these types are sent by value and all others by proxy, or refused with TypeError if there is no local server to make a proxy.

This is true of msgpack only if the list has tuple, int and numpy's dtype, which the encodings of proxies, arrays and numpy
scalars are made of (`C132_selected_partial`, `C132_by_proxy_partial`, `C132_refused`), and only of what is not part of the
message format anyway (`C132_native`). A list without tuple is useless: nothing can be sent by proxy, no array can be sent even
if ndarray is listed, no request about a proxy can be made (`C132_no_tuple`, `C132_no_request`), and a server with such a list
ends at the first request of a msgpack client that fails (`C132_server_ends`), or whose result is not listed
(`C132_server_ends_by_result`).

JSON has tuples itself, so errors are reported and unlisted objects sent by proxy whatever the list (`C132_json_errors`,
`C132_json_by_proxy`); what arrives is what the list says if it has numpy's dtype (`C132_json_selected_partial`).
-/
namespace Verif

/-- **C132** (needs tuple, int and dtype to be listed) What arrives is what the list says: at every depth, instances of the
listed types by value, everything else outside the message format as a proxy that resolves to it. -/
theorem C132_selected_partial {E : SendEnv} {R : RecvEnv} {h t} (hL : E.lib.Laws) (hR : R.lib = E.lib) (hty : Fit E.tys) (hno : NotOwner E R)
    (hr : Reach E.idOf h t) (ha : Alive E h) {v t' w} (hs : Sendable R v) (hd : msgpackDumps E t v = (t', .ok w)) :
    ∃ v', msgpackLoads R w = .ok v' ∧ Selected E R t' v v' :=
  (packSel hL rfl hR hty hno _ t v t' w (tableOk_of_reach hr ha) hs hd).2.2

/-- **C132** (needs tuple and int to be listed) If there is a local server, an object of a class that is not listed can be
sent, and arrives as a proxy that resolves to it. -/
theorem C132_by_proxy_partial {E : SendEnv} {R : RecvEnv} {h t} (hL : E.lib.Laws) (hR : R.lib = E.lib) (hty : Fit E.tys) (hno : NotOwner E R)
    (hr : Reach E.idOf h t) (ha : Alive E h) {o ts} (hi : (Val.obj o ts).isinstance E.tys = false) (hs : E.server ≠ none) :
    ∃ t' w p, msgpackDumps E t (.obj o ts) = (t', .ok w) ∧ msgpackLoads R w = .ok (.proxy p) ∧ E.server = some p.addr ∧
      t'.lookup p.oid = .ok (E.ident (.obj o ts)) ∧ p.attrs = [] := by
  obtain ⟨t', w, hd⟩ := pack_outside_ok (k := 511) hi (pack_fit_int hL hty 509) (pack_fit_tuple hty 508)
    (fun _ _ => by simp only [pack]) hs (tableOk_of_reach hr ha) rfl
  have hd' : msgpackDumps E t (.obj o ts) = (t', .ok w) := hd
  obtain ⟨v', h1, h2⟩ := C132_selected_partial hL hR hty hno hr ha (v := .obj o ts) (by simp only [Sendable]) hd'
  simp only [Selected, hi, Bool.false_eq_true, if_false] at h2
  obtain ⟨p, rfl, h3, h4, h5, -⟩ := h2
  exact ⟨t', w, p, hd', h1, h3, h4, h5⟩

/-- **C132** Without a local server an object of a class that is not listed is refused with TypeError. -/
theorem C132_refused (E : SendEnv) (t : Refs) {o ts} (hi : (Val.obj o ts).isinstance E.tys = false) (hs : E.server = none) :
    msgpackDumps E t (.obj o ts) = (t, .error .typeError) := by
  have h : encode E t (.obj o ts) = (t, .error .typeError) := by
    unfold encode
    rw [if_neg (by simp [hi]), hs]
  have h2 : msgpackDumps E t (.obj o ts) = (match encode E t (.obj o ts) with
      | (t', .ok d) => (match mapS (pairS (pack E 511)) t' d with
        | (t', .ok m) => (t', Except.ok (Wire.map m))
        | (t', .error e) => (t', .error e))
      | (t', .error e) => (t', .error e)) := rfl
  rw [h2, h]

/-- **C132** Types of the message format are sent by value whether listed or not. -/
theorem C132_native (E : SendEnv) (t : Refs) (s : String) (b : Bool) (x : Nat) :
    msgpackDumps E t (.list [.str s, .bool b, .float x, .none]) = (t, .ok (.arr [.str s, .bool b, .float x, .nil])) := rfl

/-- **C132 does not hold** of any list without tuple: nothing that contains a tuple, an array, a proxy or an object that is not
listed can be written, whether there is a local server or not. -/
theorem C132_no_tuple (E : SendEnv) (hE : NoTuple E.tys) (v : Val) (hv : NeedsTuple E.tys v) (t : Refs) : Fails (msgpackDumps E t v).2 :=
  pack_needsTuple hE _ v hv t

/-- **C132 does not hold**: a client with such a list can make no request that names an object of the server. -/
theorem C132_no_request (K : Codec) (E : SendEnv) (hE : NoTuple E.tys) (t : Refs) (c : Cli) (hc : c.ser = .msgpack) (hd : c.disconnected = false)
    (q : Request) (p : Proxy) (args kwargs : Val) (hq : q = callObjReq (.proxy p) args kwargs ∨ q = getObjReq (.proxy p)) (rt sy : String) :
    ∃ t' e, c.send K E t q.1 q.2 rt sy = (t', { c with nextId := if sy = "off" then c.nextId else c.nextId + 1 }, none, .error e) := by
  have key : ∃ v, q.2 = some v ∧ NeedsTuple E.tys v := by
    rcases hq with rfl | rfl
    · exact ⟨_, rfl, by simp only [NeedsTuple, NeedsTupleD, true_or]⟩
    · exact ⟨_, rfl, by simp only [NeedsTuple, NeedsTupleD, true_or]⟩
  obtain ⟨v, hq, hv⟩ := key
  obtain ⟨e, he⟩ := C132_no_tuple E hE v hv t
  rw [hq]
  exact ⟨_, e, C30_unserializable K E t (msgpackDumps E t v).1 c q.1 v rt sy e hd (by
    rw [hc]; exact Prod.ext rfl he)⟩

/-- **C132 does not hold** and the consequence is worse than an error: a server whose list has no tuple ends (`run_forever`
raises) at the first request of a msgpack client that fails, without an answer. -/
theorem C132_server_ends {s : Srv} {e : Ev} {c k rt x s1 o} (ho : Outcome s e c k rt (.error x) s1 o) (hk : 0 ≤ k)
    (hc : s1.clients.get? c = some "msgpack") (hE : NoTuple s1.tys) (hst : s1.stack = []) :
    (s.step e).1.dead = true ∧ ∃ pre y, (s.step e).2 = pre ++ [.done c k (some y)] := by
  obtain ⟨cl, pre, h1, h2⟩ := step_outcome ho
  obtain ⟨t, y, hy⟩ := sendError_raises (H := e.heap) hc hE k x
  have hf : s1.finish e.heap c k rt cl (.error x) =
      ({ s1 with refs := t, dead := s1.dead || s1.stack.isEmpty }, [.done c k (some y)]) := by
    simp [Srv.finish, Srv.respond, hk, hy]
  rw [h1, h2, hf]
  exact ⟨by simp [hst], pre, y, rfl⟩

/-- **C132 does not hold**: such a server ends as well when the result of a request has to be sent by proxy. -/
theorem C132_server_ends_by_result {s : Srv} {e : Ev} {c k rt v s1 o} (ho : Outcome s e c k rt (.ok v) s1 o) (hk : 0 ≤ k)
    (hc : s1.clients.get? c = some "msgpack") (hE : NoTuple s1.tys) (hst : s1.stack = [])
    (hv : rt = "proxy" ∨ (rt = "auto" ∧ v.isinstance s1.tys = false)) :
    (s.step e).1.dead = true ∧ ∃ pre y, (s.step e).2 = pre ++ [.done c k (some y)] := by
  obtain ⟨cl, pre, h1, h2⟩ := step_outcome ho
  have hcv : s1.convert e.heap rt v = s1.proxyTo e.heap v := by
    rcases hv with rfl | ⟨rfl, hv⟩
    · rfl
    · simp [Srv.convert, hv]
  have hp : ∃ t p, s1.proxyTo e.heap v = ({ s1 with refs := t }, .proxy p) := by
    simp only [Srv.proxyTo, Refs.getProxy, List.all_nil, if_true]
    exact ⟨_, _, rfl⟩
  obtain ⟨t, p, hp⟩ := hp
  obtain ⟨t2, y2, hy2⟩ := sendResult_raises (H := e.heap) (s := { s1 with refs := t }) hc hE k (rv := .proxy p) (ev := .none)
    (.inl (by simp only [NeedsTuple])) false
  obtain ⟨t3, y, hy⟩ := sendError_raises (H := e.heap) (s := { s1 with refs := t2 }) hc hE k y2
  have hf : s1.finish e.heap c k rt cl (.ok v) =
      ({ s1 with refs := t3, dead := s1.dead || s1.stack.isEmpty }, [.done c k (some y)]) := by
    simp only at hy2
    simp only [Srv.finish, Srv.respond, hk, if_true, hcv, hp, hy2, hy, List.nil_append]
  rw [h1, h2, hf]
  exact ⟨by simp [hst], pre, y, rfl⟩

/-- **C132** With JSON, where tuples are part of the message format, errors can be reported whatever the list. -/
theorem C132_json_errors (E : SendEnv) (t : Refs) (k : Int) (name : String) (tb : List String) :
    ∃ w, jsonDumps E t (replyDict k .none (.tuple [.str name, .list (tb.map .str)])) = (t, .ok w) := by
  have hs : ∀ n (s : String), jpack E (n + 1) t (.str s) = (t, .ok (.str s)) := fun _ _ => rfl
  have h1 : ∀ n, jpack E (n + 1 + 1) t (.list (tb.map .str)) = (t, .ok (.arr (tb.map .str))) := by
    intro n
    have : jpack E (n + 1 + 1) t (.list (tb.map .str)) = (match mapS (jpack E (n + 1)) t (tb.map Val.str) with
      | (t', .ok ws) => (t', Except.ok (Wire.arr ws))
      | (t', .error e) => (t', .error e)) := rfl
    rw [this, jpack_strs]
  have h2 : ∀ n, jpack E (n + 1 + 1 + 1) t (.tuple [.str name, .list (tb.map .str)]) = (t, .ok (.arr [.str name, .arr (tb.map .str)])) := by
    intro n
    have : jpack E (n + 1 + 1 + 1) t (.tuple [.str name, .list (tb.map .str)]) =
      (match mapS (jpack E (n + 1 + 1)) t [.str name, .list (tb.map .str)] with
      | (t', .ok ws) => (t', Except.ok (Wire.arr ws))
      | (t', .error e) => (t', .error e)) := rfl
    rw [this]
    simp only [mapS, hs, h1]
  have h3 : ∀ n d, jpack E (n + 1) t (.dict d) = (match mapS (jpair E.lib (jpack E n)) t d with
      | (t', .ok m) => (t', Except.ok (Wire.map m))
      | (t', .error e) => (t', .error e)) := fun _ _ => rfl
  have h4 : ∀ n, jpack E (n + 1) t (.int k) = (t, .ok (.int k)) := fun _ => rfl
  have h5 : ∀ n, jpack E (n + 1) t .none = (t, .ok .nil) := fun _ => rfl
  have h6 : ∀ s : String, jkey E.lib (.str s) = .ok s := fun _ => rfl
  simp only [jsonDumps, jsonDepth, replyDict]
  rw [h3 999]
  simp only [mapS, jpair, h6, hs 998, h4 998, h5 998, h2 996]
  exact ⟨_, rfl⟩

/-- **C132** (needs dtype to be listed) With JSON, what arrives is what the list says: at every depth, what JSON has itself, bytes,
arrays and instances of the listed types by value, everything else as a proxy that resolves to it. -/
theorem C132_json_selected_partial {E : SendEnv} {R : RecvEnv} {h t} (hL : E.lib.Laws) (hR : R.lib = E.lib) (hty : Ty.npDtype ∈ E.tys)
    (hno : NotOwner E R) (hr : Reach E.idOf h t) (ha : Alive E h) {v t' w} (hs : JSendable R v) (hd : jsonDumps E t v = (t', .ok w)) :
    ∃ v', jsonLoads R w = .ok v' ∧ JSelected E R t' v v' :=
  (jpackSel hL rfl hR hty hno _ t v t' w (tableOk_of_reach hr ha) hs hd).2.2

/-- **C132** With JSON and a local server, an object of a class that is not listed can be sent by proxy whatever the list. -/
theorem C132_json_by_proxy {E : SendEnv} {h t} (hr : Reach E.idOf h t) (ha : Alive E h) {o ts}
    (hi : (Val.obj o ts).isinstance E.tys = false) {addr : String} (hs : E.server = some addr) :
    ∃ t' oid rid, jsonDumps E t (.obj o ts) = (t', .ok (.map [(.str encodeKey, .str "proxy"), (.str "rpc_addr", .str addr),
        (.str "obj_id", .int oid), (.str "ref_id", .int rid), (.str "type_str", .str (E.typeStr (.obj o ts))), (.str "attributes", .arr [])])) ∧
      t'.lookup oid.toNat = .ok (E.ident (.obj o ts)) := by
  obtain ⟨t2, oid, rid, hg, -, -, hl⟩ := getProxy_ok (tableOk_of_reach hr ha) (.obj o ts)
  have he := encode_proxied hi hs hg
  have h2 : jsonDumps E t (.obj o ts) = (match encode E t (.obj o ts) with
      | (t', .ok d) => (match mapS (jpair E.lib (jpack E 999)) t' d with
        | (t', .ok m) => (t', Except.ok (Wire.map m))
        | (t', .error e) => (t', .error e))
      | (t', .error e) => (t', .error e)) := rfl
  refine ⟨t2, oid, rid, ?_, hl⟩
  rw [h2, he]
  rfl

/-! ## Examples -/

namespace Ex

/-- Process A with a short list of types that has what the encodings need. -/
def sendFit : SendEnv := { sendA with tys := [.tuple, .int, .npDtype, .date] }
/-- Process A with the list `(ndarray,)`. -/
def sendArr : SendEnv := { sendA with tys := [.ndarray] }
/-- A server with the list `(ndarray,)`. -/
def srvArr : Srv := Srv.init "tcp://a:1" [.ndarray] self
/-- A value with a date (listed), a proxy and an object (not listed). -/
def mixed : Val := .tuple [.date ⟨2024, 2, 29⟩, .proxy ⟨"tcp://c:9", 4, 5, "T", []⟩, .list [.obj 7 [.user 1]]]

end Ex

theorem exFit : Fit Ex.sendFit.tys := ⟨by decide, by decide, by decide⟩
theorem exNoTuple : NoTuple Ex.sendArr.tys := ⟨by decide, by decide⟩

/-- A value with a listed date and with a proxy and an object that are not listed: both are sent by proxy. -/
example : ∃ t' w p q, msgpackDumps Ex.sendFit Refs.init Ex.mixed = (t', .ok w) ∧
    msgpackLoads Ex.recvB w = .ok (.tuple [.date ⟨2024, 2, 29⟩, .proxy p, .list [.proxy q]]) ∧ p.addr = "tcp://a:1" ∧
    t'.lookup p.oid = .ok (Ex.sendFit.ident (.proxy ⟨"tcp://c:9", 4, 5, "T", []⟩)) ∧ t'.lookup q.oid = .ok (Ex.sendFit.ident (.obj 7 [.user 1])) := by
  obtain ⟨t', w, hd⟩ : ∃ t' w, msgpackDumps Ex.sendFit Refs.init Ex.mixed = (t', .ok w) := ⟨_, _, rfl⟩
  obtain ⟨v', h1, h2⟩ := C132_selected_partial (E := Ex.sendFit) (R := Ex.recvB) Ex.laws rfl exFit Ex.linkAB.notOwner .init (Ex.alive _ _ rfl)
    (v := Ex.mixed) (by
      simp only [Ex.mixed, Sendable, SendableL]
      exact ⟨⟨by decide, Or.inl (by decide)⟩, ⟨_, rfl⟩, ⟨trivial, trivial⟩, trivial⟩) hd
  have i1 : (Val.date ⟨2024, 2, 29⟩).isinstance Ex.sendFit.tys = true := by decide
  have i2 : (Val.proxy ⟨"tcp://c:9", 4, 5, "T", []⟩).isinstance Ex.sendFit.tys = false := by decide
  have i3 : (Val.obj 7 [.user 1]).isinstance Ex.sendFit.tys = false := by decide
  simp only [Ex.mixed, Selected, SelectedL, fit_tuple exFit, i1, i2, i3, if_true, Bool.false_eq_true, if_false, PlainSent] at h2
  obtain ⟨_, rfl, _, _, rfl, rfl, _, _, rfl, ⟨p, rfl, ha, hp, -⟩, _, _, rfl, ⟨_, rfl, _, _, rfl, ⟨q, rfl, -, hq, -⟩, rfl⟩, rfl⟩ := h2
  exact ⟨t', w, p, q, hd, h1, by simpa [Ex.sendFit, Ex.sendA] using ha.symm, hp, hq⟩

/-- An object that is not listed. -/
example : ∃ t' w p, msgpackDumps Ex.sendFit Refs.init (.obj 7 [.user 1]) = (t', .ok w) ∧ msgpackLoads Ex.recvB w = .ok (.proxy p) ∧
    Ex.sendFit.server = some p.addr ∧ t'.lookup p.oid = .ok (Ex.sendFit.ident (.obj 7 [.user 1])) ∧ p.attrs = [] :=
  C132_by_proxy_partial (E := Ex.sendFit) (R := Ex.recvB) Ex.laws rfl exFit Ex.linkAB.notOwner .init (Ex.alive _ _ rfl) (by decide) (by simp [Ex.sendFit, Ex.sendA])

/-- The same in a process without server. -/
example : msgpackDumps { Ex.sendFit with server := none } Refs.init (.obj 7 [.user 1]) = (Refs.init, .error .typeError) :=
  C132_refused _ _ (by decide) rfl

/-- With the list `(ndarray,)` no array can be sent. -/
example (a : NdArray) : Fails (msgpackDumps Ex.sendArr Refs.init (.ndarray a)).2 := C132_no_tuple _ exNoTuple _ (by simp only [NeedsTuple]) _

/-- A client with the list `(ndarray,)` calls a function of the server. -/
example (K : Codec) : ∃ t' e, (Cli.init [65] .msgpack).send K Ex.sendArr Refs.init "call_obj"
    (callObjReq (.proxy ⟨"tcp://b:2", 4, 5, "T", []⟩) (.list []) (.dict [])).2 "auto" "sync" =
    (t', { Cli.init [65] .msgpack with nextId := 1 }, none, .error e) :=
  C132_no_request K Ex.sendArr exNoTuple Refs.init (Cli.init [65] .msgpack) rfl rfl _ ⟨"tcp://b:2", 4, 5, "T", []⟩ (.list []) (.dict []) (.inl rfl) "auto" "sync"

/-- **C132 does not hold**: a server with the list `(ndarray,)`, asked for a name nobody has set, ends. -/
theorem C132_fails : Ex.srvArr.Serving ∧ (Ex.srvArr.step (Ex.msg 65 [1] 10 20 30 [1])).1.dead = true :=
  ⟨⟨rfl, rfl, rfl⟩, (C132_server_ends (s := Ex.srvArr) (e := Ex.msg 65 [1] 10 20 30 [1]) (c := [65]) (k := 1) (rt := "auto") (x := .keyError)
    (s1 := { Ex.srvArr with clients := Ex.srvArr.clients.set [65] "msgpack" }) (o := [])
    ⟨"get_item", "msgpack", [1], .msgpack, .dict [(.str "name", .str "x")], rfl, ⟨rfl, rfl, rfl⟩, rfl, by decide, rfl, rfl⟩
    (by decide) rfl ⟨by decide, by decide⟩ rfl).1⟩

/-- The same server, pinged with return type 'proxy', ends. -/
example : (Ex.srvArr.step (Ex.msg 65 [1] 14 21 30 [])).1.dead = true :=
  (C132_server_ends_by_result (s := Ex.srvArr) (e := Ex.msg 65 [1] 14 21 30 []) (c := [65]) (k := 1) (rt := "proxy") (v := .str "pong")
    (s1 := { Ex.srvArr with clients := Ex.srvArr.clients.set [65] "msgpack" }) (o := [])
    ⟨"ping", "msgpack", [], .msgpack, .none, rfl, ⟨rfl, rfl, rfl⟩, rfl, by decide, rfl, rfl⟩
    (by decide) rfl ⟨by decide, by decide⟩ rfl (.inl rfl)).1

/-- With JSON and the list `(dtype, date)`: the date is sent by value, the proxy and the object by proxy, the tuple as a list. -/
example : ∃ t' w p q, jsonDumps { Ex.sendA with tys := [.npDtype, .date] } Refs.init Ex.mixed = (t', .ok w) ∧
    jsonLoads Ex.recvB w = .ok (.list [.date ⟨2024, 2, 29⟩, .proxy p, .list [.proxy q]]) ∧ p.addr = "tcp://a:1" ∧
    t'.lookup q.oid = .ok (Ex.sendA.ident (.obj 7 [.user 1])) := by
  obtain ⟨t', w, hd⟩ : ∃ t' w, jsonDumps { Ex.sendA with tys := [.npDtype, .date] } Refs.init Ex.mixed = (t', .ok w) := ⟨_, _, rfl⟩
  obtain ⟨v', h1, h2⟩ := C132_json_selected_partial (E := { Ex.sendA with tys := [.npDtype, .date] }) (R := Ex.recvB) Ex.laws rfl (by decide)
    Ex.linkAB.notOwner .init (Ex.alive _ _ rfl) (v := Ex.mixed) (by
      simp only [Ex.mixed, JSendable, JSendableL]
      exact ⟨⟨by decide, Or.inl (by decide)⟩, ⟨_, rfl⟩, ⟨trivial, trivial⟩, trivial⟩) hd
  have i1 : (Val.date ⟨2024, 2, 29⟩).isinstance [.npDtype, .date] = true := by decide
  have i2 : (Val.proxy ⟨"tcp://c:9", 4, 5, "T", []⟩).isinstance [.npDtype, .date] = false := by decide
  have i3 : (Val.obj 7 [.user 1]).isinstance [.npDtype, .date] = false := by decide
  simp only [Ex.mixed, JSelected, JSelectedL, Val.jnative, Val.core, i1, i2, i3, or_true, or_false, if_true, Bool.false_eq_true, if_false, PlainSent] at h2
  obtain ⟨_, rfl, _, _, rfl, rfl, _, _, rfl, ⟨p, rfl, ha, hp, -⟩, _, _, rfl, ⟨_, rfl, _, _, rfl, ⟨q, rfl, -, hq, -⟩, rfl⟩, rfl⟩ := h2
  exact ⟨t', w, p, q, hd, h1, by simpa [Ex.sendA] using ha.symm, hq⟩

/-- With JSON and the list `(ndarray,)` an object is sent by proxy. -/
example : ∃ t' oid rid, jsonDumps Ex.sendArr Refs.init (.obj 7 [.user 1]) = (t', .ok (.map [(.str encodeKey, .str "proxy"), (.str "rpc_addr", .str "tcp://a:1"),
    (.str "obj_id", .int oid), (.str "ref_id", .int rid), (.str "type_str", .str (Ex.sendArr.typeStr (.obj 7 [.user 1]))), (.str "attributes", .arr [])])) ∧
    t'.lookup oid.toNat = .ok (Ex.sendArr.ident (.obj 7 [.user 1])) :=
  C132_json_by_proxy .init (Ex.alive _ _ rfl) (by decide) rfl

end Verif
