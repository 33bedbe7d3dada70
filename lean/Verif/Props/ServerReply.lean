import Verif.Proof.ServerNames
import Verif.Props.ServerServe
/-!
# Properties C11–C13: what the requester gets
-/
namespace Verif
open Ex (lib laws heap srv msg self)

theorem serializable_dumps {E : SendEnv} (hL : E.lib.Laws) (hty : ∀ ty ∈ defaultTypes, ty ∈ E.tys) (hs : E.server ≠ none)
    {ser : Ser} {v : Val} (h : ser.Serializable E.lib E.tys v) (t : Refs) (k : Int) :
    ∃ t' w, ser.dumps E t (replyDict k v .none) = (t', .ok w) := by
  cases ser with
  | msgpack =>
    simp only [Ser.dumps, msgpackDumps, msgpackDepth]
    refine (packT hL hty 512 t _ ?_ ?_).1 (Or.inl hs)
    · simp [replyDict, Packable, PackableD, keyOk, h.1]
    · have := h.2
      simp only [replyDict, Val.depth, depthD]
      split <;> omega
  | json =>
    simp only [Ser.dumps, jsonDumps, jsonDepth]
    refine (jpackT hL hty 1000 t _ ?_ ?_).1 (Or.inl hs)
    · simp [replyDict, JPackable, JPackableD, jkey, Val.core, h.1]
    · have := h.2
      simp only [replyDict, Val.jdepth, jdepthD]
      omega

/-- The circumstances of the theorems below: a healthy server whose table was reached by some history, with live
objects; a requester connected to it; no lone surrogates in exception texts. -/
structure Connected (H : Heap) (R : RecvEnv) (s : Srv) : Prop where
  healthy : Healthy H.utf8 s
  link : Link H.lib (s.sendEnv H) R
  reached : ∃ h, Reach H.idOf h s.refs
  live : LiveHeap H s.refs
  text : H.tbBad = false

theorem outcome_answering {s : Srv} {e : Ev} {R c k rt r s1 o} (hc : Connected e.heap R s) (h : Outcome s e c k rt r s1 o) :
    Answering e.heap R s1 c ∧ s1.addr = s.addr ∧ s1.tys = s.tys := by
  obtain ⟨h0, hr⟩ := hc.reached
  have hlt := LiveTable.of_reach hr hc.live
  cases e with
  | recv H parts =>
    obtain ⟨a, st, b, ser, opts, h1, _, h5, h6, h7, h8⟩ := h
    have hp := action_path H { s with clients := s.clients.set c st } c a opts
    have hs := action_state H { s with clients := s.clients.set c st } c a opts
    rw [h8] at hp hs
    obtain ⟨⟨t, n, b1, b2, h9, _⟩, _⟩ := hs
    simp only [Started.refs] at hp
    refine ⟨⟨?_, hlt.path hp, ?_, ?_⟩, ?_, ?_⟩
    · have : s1.sendEnv H = s.sendEnv H := by rw [h9]; rfl
      rw [show (Ev.recv H parts).heap = H from rfl, this]; exact hc.link
    · rw [h9]; exact hc.healthy.sock
    · rw [h9]; exact ⟨h6, by simp [h5]⟩
    · rw [h9]
    · rw [h9]
  | ret H r0 =>
    obtain ⟨task, st, h1, h2, h3, h4⟩ := h
    subst h3
    exact ⟨⟨hc.link, hlt, hc.healthy.sock, hc.healthy.frames ⟨c, k, rt, task⟩ (by rw [h1]; simp)⟩, rfl, rfl⟩
  | publish H n v => exact h.elim
  | mkProxy H v kw => exact h.elim

theorem reply_append {R os pre c k rv ev} (h : Reply R os c k rv ev) : Reply R (pre ++ os) c k rv ev := by
  obtain ⟨ser, w, d, h1, h2⟩ := h
  exact ⟨ser, w, d, List.mem_append_right _ h1, h2⟩

/-! ## C11 -/

/-- **C11.** If the requested action raises an exception of class `x`, the requester reads from the reply: result
`None` and error `(name of x, traceback)`, in the serializer it last used. The action ends either in the step that
reads the message or when the user code it started ends. -/
theorem C11_error_reported {s : Srv} {e : Ev} {R c k rt x s1 o} (hc : Connected e.heap R s)
    (h : Outcome s e c k rt (.error x) s1 o) (hk : 0 ≤ k) :
    ∃ ser, (s1.clients.get? c).bind serOf = some ser ∧
      Reply R (s.step e).2 c k .none (ser.pair (.str x.name) (.list ((e.heap.transcript c k).map .str))) := by
  obtain ⟨ha, -, -⟩ := outcome_answering hc h
  obtain ⟨cl, pre, -, h2⟩ := step_outcome h
  obtain ⟨ser, h3, h4⟩ := finish_error_reply ha hc.text hk rt cl x
  exact ⟨ser, h3, by rw [h2]; exact reply_append h4⟩

/-- Unknown actions, undecodable payloads and so on are reported in the same way (the message is read but no action
starts). -/
theorem C11_unreadable_reported {s : Srv} {H : Heap} {R parts c m x} (hc : Connected H R s)
    (hr : readOne H parts = .ok (c, m)) (hu : H.utf8 c ≠ none) {ser} (hs : serOf m.serType = some ser)
    (hp : m.payload H s ser = .error x) (hk : 0 ≤ m.reqId) :
    Reply R (s.step (.recv H parts)).2 c m.reqId .none (ser.pair (.str x.name) (.list ((H.transcript c m.reqId).map .str))) := by
  obtain ⟨h0, hrr⟩ := hc.reached
  have ha : Answering H R ({ s with clients := s.clients.set c m.serType } : Srv) c :=
    ⟨hc.link, LiveTable.of_reach hrr hc.live, hc.healthy.sock, hu, by simp [hs]⟩
  obtain ⟨ser', h3, h4⟩ := finish_error_reply ha hc.text hk m.returnType (decide (m.action = "close")) x
  simp only [Dict.get?_set, if_true, Option.bind_some, hs, Option.some.injEq] at h3
  subst h3
  have hh := hc.healthy
  simp only [Srv.step, hh.isOpen, hh.alive, hh.sock, hr, Bool.or_self, Bool.false_eq_true, Bool.true_eq_false, if_false]
  rcases process_split H s c m with ⟨e, h, h5⟩ | ⟨ser', cs, opts, h5, h6, h7, _⟩
  · rcases h5 with h5 | h5 | ⟨ser', h5, h6⟩
    · rw [hs] at h5; simp at h5
    · exact absurd h5 hu
    · rw [hs] at h5; simp only [Option.some.injEq] at h5; subst h5
      rw [hp] at h6; simp only [Except.error.injEq] at h6; subst h6
      rw [h]
      exact reply_append (pre := [_]) h4
  · rw [hs] at h5; simp only [Option.some.injEq] at h5; subst h5
    rw [hp] at h7; simp at h7

/-- **C11.** If the action returns `v`, which is sent by value (see C12) and is serializable, the requester reads from
the reply error `None` and a result that is `v` up to what the serializer changes (`Arrives`, see C17, C18). -/
theorem C11_result_reported {s : Srv} {e : Ev} {R c k rt v s1 o} (hc : Connected e.heap R s)
    (h : Outcome s e c k rt (.ok v) s1 o) (hk : 0 ≤ k) (hrt : rt ≠ "proxy") (hty : rt = "auto" → v.isinstance s.tys = true)
    {ser} (hser : (s1.clients.get? c).bind serOf = some ser) (hv : ser.Serializable e.heap.lib s.tys v) (hsd : ser.Sendable R v) :
    ∃ rv, Reply R (s.step e).2 c k rv .none ∧
      ser.Arrives e.heap.lib s.tys (ByProxy (s.sendEnv e.heap) R (s.step e).1.refs) v rv := by
  obtain ⟨ha, haddr, htys⟩ := outcome_answering hc h
  obtain ⟨cl, pre, h1, h2⟩ := step_outcome h
  obtain ⟨t, w, hd⟩ := serializable_dumps (E := s1.sendEnv e.heap) (ha.link.sender ▸ ha.link.laws) ha.link.types (by simp [Srv.sendEnv])
    (ser := ser) (v := v) (by simpa [Srv.sendEnv, htys] using hv) s1.refs k
  have hconv : s1.convert e.heap rt v = (s1, v) := by
    unfold Srv.convert
    rw [htys]
    by_cases h3 : rt = "auto"
    · rw [if_pos h3, if_pos (hty h3)]
    · rw [if_neg h3, if_neg hrt]
  obtain ⟨rv, h4, h5⟩ := finish_value_reply ha hk cl hconv hser hsd hd
  refine ⟨rv, by rw [h2]; exact reply_append h4, ?_⟩
  rw [h1]
  have : s1.sendEnv e.heap = s.sendEnv e.heap := by simp [Srv.sendEnv, haddr, htys]
  rw [this, htys] at h5
  exact h5

/-- **C11.** What the exception class reported is: for a call, the class the called code raised — except that when the
arguments cannot be sliced, the failing log call of server.py:357 replaces it by the class that slicing raises. -/
theorem C11_call_outcome {s : Srv} {H : Heap} {c k rt mask st} (hst : s.stack = ⟨c, k, rt, .call mask⟩ :: st) (x : Exc) :
    Outcome s (.ret H (.error x)) c k rt (.error (mask.getD x)) { s with stack := st } [] := by
  refine ⟨.call mask, st, hst, ?_, rfl, rfl⟩
  cases mask <;> rfl

/-- calls with a list or tuple of arguments never mask -/
theorem C11_no_mask (H : Heap) (l : List Val) : sliceMask H (.list l) = none ∧ sliceMask H (.tuple l) = none := ⟨rfl, rfl⟩

theorem exConnected (s : Srv) (hh : Healthy heap.utf8 s) (ha : s.addr = "tcp://a:1") (ht : s.tys = defaultTypes)
    (hr : ∃ h, Reach heap.idOf h s.refs) : Connected heap Ex.recvB s where
  healthy := hh
  link := by
    have : s.sendEnv heap = Ex.sendA := by simp [Srv.sendEnv, ha, ht, heap, Ex.sendA]
    rw [this]; exact Ex.linkAB
  reached := hr
  live := Ex.liveHeap _
  text := rfl

/-- a server with a call of A running -/
def exCalling : Srv := { srv with clients := [([65], "msgpack")], stack := [⟨[65], 1, "auto", .call none⟩] }
theorem exCalling_connected : Connected heap Ex.recvB exCalling := by
  refine exConnected _ ⟨by decide, rfl, rfl, rfl, ?_, ?_⟩ rfl rfl ⟨_, .init⟩
  · intro c st h
    simp only [exCalling, Dict.get?] at h
    split at h
    · simp only [Option.some.injEq] at h; subst h; decide
    · simp at h
  · intro f hf
    simp only [exCalling, List.mem_singleton] at hf; subst hf
    exact ⟨by decide, by decide⟩
example : Connected heap Ex.recvB exCalling ∧
    Outcome exCalling (.ret heap (.error (.other "SystemExit"))) [65] 1 "auto" (.error (.other "SystemExit")) { exCalling with stack := [] } [] :=
  ⟨exCalling_connected, ⟨_, _, rfl, rfl, rfl, rfl⟩⟩
example : Outcome exCalling (.ret heap (.ok (.list [.int 3, .str "x"]))) [65] 1 "auto" (.ok (.list [.int 3, .str "x"])) { exCalling with stack := [] } [] ∧
    (Val.list [.int 3, .str "x"]).isinstance exCalling.tys = true ∧ Ser.msgpack.Serializable lib exCalling.tys (.list [.int 3, .str "x"]) ∧
    Ser.msgpack.Sendable Ex.recvB (.list [.int 3, .str "x"]) :=
  ⟨⟨_, _, rfl, rfl, rfl, rfl⟩, by decide, ⟨by simp [Packable, PackableL], by decide⟩, by simp [Ser.Sendable, Sendable, SendableL]⟩

/-! ## C12 -/

/-- **C12.** With return type `proxy`, and with `auto` for a result whose type is not among the serialize types, the
requester gets no error and a proxy with the server's address that resolves, in the server's table, to the very object
that the action returned, under a reference of its own. -/
theorem C12_result_by_proxy {s : Srv} {e : Ev} {R c k rt v s1 o} (hc : Connected e.heap R s)
    (h : Outcome s e c k rt (.ok v) s1 o) (hk : 0 ≤ k) (hrt : rt = "proxy" ∨ rt = "auto" ∧ v.isinstance s.tys = false) :
    ∃ p refs, Reply R (s.step e).2 c k (.proxy p) .none ∧ p.addr = s.addr ∧ p.attrs = [] ∧
      (s.step e).1.refs.lookup p.oid = .ok (e.heap.ident v) ∧
      (s.step e).1.refs.refs.get? p.oid = some (e.heap.ident v, refs) ∧ p.rid ∈ refs := by
  obtain ⟨ha, haddr, htys⟩ := outcome_answering hc h
  obtain ⟨cl, pre, h1, h2⟩ := step_outcome h
  have hconv : s1.convert e.heap rt v = s1.proxyTo e.heap v := by
    unfold Srv.convert
    rw [htys]
    rcases hrt with rfl | ⟨rfl, h3⟩
    · rfl
    · simp [h3]
  obtain ⟨p, rs, h3, h4, h5, _, _, h6, h7⟩ := finish_proxy_reply ha hk cl hconv
  refine ⟨p, rs, by rw [h2]; exact reply_append h3, h4.trans haddr, h5, ?_, by rw [h1]; exact h6, h7⟩
  rw [h1, Refs.lookup, h6]

/-- **C12.** With return type `auto`, a serializable result whose type is among the serialize types is sent by value:
what arrives is the value itself as far as the serializer keeps it, and no proxy to it. -/
theorem C12_result_by_value {s : Srv} {e : Ev} {R c k v s1 o} (hc : Connected e.heap R s)
    (h : Outcome s e c k "auto" (.ok v) s1 o) (hk : 0 ≤ k) (hty : v.isinstance s.tys = true)
    {ser} (hser : (s1.clients.get? c).bind serOf = some ser) (hv : ser.Serializable e.heap.lib s.tys v) (hsd : ser.Sendable R v)
    (hnp : ∀ p, v.core ≠ .proxy p) :
    ∃ rv, Reply R (s.step e).2 c k rv .none ∧ (∀ p, rv ≠ .proxy p) ∧
      ser.Arrives e.heap.lib s.tys (ByProxy (s.sendEnv e.heap) R (s.step e).1.refs) v rv := by
  obtain ⟨rv, h1, h2⟩ := C11_result_reported hc h hk (by decide) (fun _ => hty) hser hv hsd
  refine ⟨rv, h1, ?_, h2⟩
  clear h1 hv hsd hser
  generalize ByProxy (s.sendEnv e.heap) R (s.step e).1.refs = P at h2
  rintro p rfl
  -- only objects and proxies may arrive as proxies
  have hA : ∀ v : Val, (∀ p, v.core ≠ .proxy p) → v.isinstance s.tys = true → ¬ Arrives s.tys P v (.proxy p) := by
    intro v
    induction v using Val.core.induct with
    | case1 c v ih =>
      intro hn hi ha
      simp only [Arrives] at ha
      split at ha
      · rename_i hf
        -- a flattened kind: the arriving value is decided by the core
        clear ih hi
        induction v using Val.core.induct with
        | case1 c' v' ih' =>
          simp only [Arrives] at ha
          have hf' : v'.flattened = true := by simpa [Val.flattened, Val.core] using hf
          rw [if_pos hf'] at ha
          exact ih' (by simpa [Val.core] using hn) hf' ha
        | case2 v' hv' =>
          cases v' with
          | sub c'' v'' => exact (hv' _ _ rfl).elim
          | _ => simp [Arrives, Val.core, Val.flattened] at ha hf hn
      · cases ha
    | case2 v hv =>
      intro hn hi ha
      cases v <;> simp [Arrives, Val.core] at ha hn
      all_goals simp_all
  have hJ : ∀ v : Val, (∀ p, v.core ≠ .proxy p) → v.isinstance s.tys = true → ¬ JArrives e.heap.lib s.tys P v (.proxy p) := by
    intro v
    induction v using Val.core.induct with
    | case1 c v ih =>
      intro hn hi ha
      simp only [JArrives] at ha
      split at ha
      · rename_i hf
        clear ih hi
        induction v using Val.core.induct with
        | case1 c' v' ih' =>
          simp only [JArrives] at ha
          have hf' : v'.jflattened = true := by simpa [Val.jflattened, Val.core] using hf
          rw [if_pos hf'] at ha
          exact ih' (by simpa [Val.core] using hn) hf' ha
        | case2 v' hv' =>
          cases v' with
          | sub c'' v'' => exact (hv' _ _ rfl).elim
          | _ => (try simp [JArrives, Val.core, Val.jflattened] at ha hf hn) <;> (try (split at ha <;> simp at ha))
      · cases ha
    | case2 v hv =>
      intro hn hi ha
      cases v <;> simp [JArrives, Val.core] at ha hn
      all_goals (try simp_all)
      split at ha <;> simp at ha
  cases ser with
  | msgpack => exact hA v hnp hty h2
  | json => exact hJ v hnp hty h2

example : Outcome exCalling (.ret heap (.ok (.obj 7 [.user 1]))) [65] 1 "auto" (.ok (.obj 7 [.user 1])) { exCalling with stack := [] } [] ∧
    (Val.obj 7 [.user 1]).isinstance exCalling.tys = false := ⟨⟨_, _, rfl, rfl, rfl, rfl⟩, by decide⟩

/-! ## C13 -/

/-- **C13 fails in the code**, for every object of a class outside the serialize types: with return type `value` the
requester gets no error but a proxy to the object. -/
theorem C13_negation {s : Srv} {e : Ev} {R c k n ts s1 o} (hc : Connected e.heap R s)
    (h : Outcome s e c k "value" (.ok (.obj n ts)) s1 o) (hk : 0 ≤ k) (hfor : (Val.obj n ts).isinstance s.tys = false)
    {ser} (hser : (s1.clients.get? c).bind serOf = some ser) :
    ∃ p, Reply R (s.step e).2 c k (.proxy p) .none ∧ (s.step e).1.refs.lookup p.oid = .ok (e.heap.ident (.obj n ts)) := by
  obtain ⟨rv, h1, h2⟩ := C11_result_reported hc h hk (by decide) (by simp) hser
    (by cases ser <;> simp [Ser.Serializable, Packable, JPackable, Val.depth, Val.jdepth, hfor])
    (by cases ser <;> simp [Ser.Sendable, Sendable, JSendable])
  have h3 : ∃ p, rv = .proxy p ∧ (s.sendEnv e.heap).server = some p.addr ∧
      (s.step e).1.refs.lookup p.oid = .ok ((s.sendEnv e.heap).ident (.obj n ts)) ∧ p.attrs = [] ∧
      p.typeStr = (s.sendEnv e.heap).typeStr (.obj n ts) := by
    cases ser <;> simp only [Ser.Arrives, Arrives, JArrives, hfor, Bool.false_eq_true, if_false, ByProxy] at h2 <;> exact h2
  obtain ⟨p, rfl, _, h4, _⟩ := h3
  exact ⟨p, h1, h4⟩

/-- the same server with return type `value` -/
def exValue : Srv := { exCalling with stack := [⟨[65], 1, "value", .call none⟩] }
/-- a concrete disagreement: no error, but a proxy -/
example : ∃ p, Reply Ex.recvB (exValue.step (.ret heap (.ok (.obj 7 [.user 1])))).2 [65] 1 (.proxy p) .none := by
  have hc : Connected heap Ex.recvB exValue := by
    refine exConnected _ ⟨by decide, rfl, rfl, rfl, exCalling_connected.healthy.sers, ?_⟩ rfl rfl ⟨_, .init⟩
    intro f hf
    simp only [exValue, List.mem_singleton] at hf; subst hf
    exact ⟨by decide, by decide⟩
  obtain ⟨p, h, _⟩ := C13_negation (e := .ret heap (.ok (.obj 7 [.user 1]))) (s := exValue) (R := Ex.recvB) (c := [65]) (k := 1) (s1 := { exValue with stack := [] })
    (o := []) (n := 7) (ts := [.user 1]) (ser := .msgpack) hc ⟨_, _, rfl, rfl, rfl, rfl⟩ (by decide) (by decide) (by decide)
  exact ⟨p, h⟩

/-- **C13 (partial).** With return type `value`, if the serializer itself raises (keys it refuses, nesting too deep,
pickle errors), the requester gets that exception. Missing for C13: objects of classes outside the serialize types
should raise too. -/
theorem C13_value_unserializable_partial {s : Srv} {e : Ev} {R c k v s1 o} (hc : Connected e.heap R s)
    (h : Outcome s e c k "value" (.ok v) s1 o) (hk : 0 ≤ k) {ser} (hser : (s1.clients.get? c).bind serOf = some ser) {t x}
    (hd : ser.dumps (s1.sendEnv e.heap) s1.refs (replyDict k v .none) = (t, .error x)) :
    Reply R (s.step e).2 c k .none (ser.pair (.str x.name) (.list ((e.heap.transcript c k).map .str))) := by
  obtain ⟨ha, -, -⟩ := outcome_answering hc h
  obtain ⟨cl, pre, -, h2⟩ := step_outcome h
  rw [h2]
  exact reply_append (finish_unserializable_reply ha hc.text hk cl (by simp [Srv.convert]) hser hd)

example : Outcome exValue (.ret heap (.ok (.obj 3 [.sharedMemory, .user 5]))) [65] 1 "value" (.ok (.obj 3 [.sharedMemory, .user 5]))
      { exValue with stack := [] } [] ∧
    ∃ t, Ser.msgpack.dumps (exValue.sendEnv heap) exValue.refs (replyDict 1 (.obj 3 [.sharedMemory, .user 5]) .none) =
      (t, .error (.other "PicklingError")) :=
  ⟨⟨_, _, rfl, rfl, rfl, rfl⟩, _, rfl⟩

open Ex

/-! ## The theorems on these cases -/

example := C11_error_reported (e := .ret heap (.error (.other "SystemExit"))) (k := 1) exCalling_connected ⟨_, _, rfl, rfl, rfl, rfl⟩ (by decide)
/-- B sends options that cannot be read while A's call is running. -/
example := C11_unreadable_reported (parts := [[66], [3], [13], [20], [31], [9]]) (c := [66]) (m := ⟨3, "call_obj", "auto", "json", [9]⟩) (x := .valueError)
  exCalling_connected rfl (by decide) (ser := .json) rfl rfl (by decide)
example := C11_result_reported (e := .ret heap (.ok (.list [.int 3, .str "x"]))) (c := [65]) (k := 1) exCalling_connected ⟨_, _, rfl, rfl, rfl, rfl⟩
  (by decide) (by decide) (fun _ => by decide) (ser := .msgpack) rfl ⟨by simp [Packable, PackableL], by decide⟩ (by simp [Ser.Sendable, Sendable, SendableL])
example := C11_call_outcome (s := exCalling) (H := heap) rfl (.other "SystemExit")
example := C12_result_by_proxy (e := .ret heap (.ok (.obj 7 [.user 1]))) (k := 1) exCalling_connected ⟨_, _, rfl, rfl, rfl, rfl⟩ (by decide) (.inr ⟨rfl, by decide⟩)
example := C12_result_by_value (e := .ret heap (.ok (.list [.int 3, .str "x"]))) (c := [65]) (k := 1) exCalling_connected ⟨_, _, rfl, rfl, rfl, rfl⟩
  (by decide) (by decide) (ser := .msgpack) rfl ⟨by simp [Packable, PackableL], by decide⟩ (by simp [Ser.Sendable, Sendable, SendableL]) (by simp [Val.core])
theorem exValue_connected : Connected heap Ex.recvB exValue := by
  refine exConnected _ ⟨by decide, rfl, rfl, rfl, exCalling_connected.healthy.sers, ?_⟩ rfl rfl ⟨_, .init⟩
  intro f hf
  simp only [exValue, List.mem_singleton] at hf; subst hf
  exact ⟨by decide, by decide⟩
/-- An object that cannot be pickled. -/
example := C13_value_unserializable_partial (e := .ret heap (.ok (.obj 3 [.sharedMemory, .user 5]))) (c := [65]) (k := 1) exValue_connected ⟨_, _, rfl, rfl, rfl, rfl⟩
  (by decide) (ser := .msgpack) rfl (x := .other "PicklingError") rfl

end Verif
