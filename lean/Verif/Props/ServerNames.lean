import Verif.Props.ServerReply
/-!
# Properties C14–C16: published names and closing
-/
namespace Verif
open Ex (lib laws heap srv msg self)

/-! ## C14 -/

/-- **C14.** After any history of a server, a name holds what was published last under it, by `server[name] = v` or by a
`set_item` request of any client; `self` is published from the start, and nothing else changes the names. -/
theorem C14_last_published (addr : String) (tys : List Ty) (self : Val) (es : List Ev) (k : Key) :
    ((Srv.init addr tys self).run es).1.ns.get? k =
      (lastOf ((Srv.init addr tys self).writes es) k).or (if k = .str "self" then some self else none) := by
  rw [run_ns]
  congr 1
  simp only [Srv.init, Dict.get?]
  by_cases h : k = .str "self"
  · subst h; simp
  · rw [if_neg h, if_neg (fun h' => h h'.symm)]

theorem get_item_outcome {s : Srv} {H : Heap} {parts c k rt st b ser opts n key} (hs : s.Serving)
    (hr : readOne H parts = .ok (c, ⟨k, "get_item", rt, st, b⟩)) (hst : serOf st = some ser) (hu : H.utf8 c ≠ none)
    (hp : Msg.payload H s ⟨k, "get_item", rt, st, b⟩ ser = .ok opts) (hn : optGet H opts "name" = .ok n) (hk : keyOf H n = .ok key) :
    Outcome s (.recv H parts) c k rt (match s.ns.get? key with | some v => .ok v | none => .error .keyError)
      { s with clients := s.clients.set c st } [] := by
  refine ⟨"get_item", st, b, ser, opts, hr, hs, hst, hu, hp, ?_⟩
  simp only [Srv.action, hn, bind, Except.bind, hk]
  cases s.ns.get? key <;> rfl

/-- **C14.** A client asking for a name that was never published gets a `KeyError`. -/
theorem C14_unknown_name {addr : String} {tys : List Ty} {self : Val} {es : List Ev} {s : Srv} {H : Heap} {R parts c k rt st b ser opts n key}
    (hrun : s = ((Srv.init addr tys self).run es).1) (hc : Connected H R s)
    (hr : readOne H parts = .ok (c, ⟨k, "get_item", rt, st, b⟩)) (hst : serOf st = some ser) (hu : H.utf8 c ≠ none) (hk : 0 ≤ k)
    (hp : Msg.payload H s ⟨k, "get_item", rt, st, b⟩ ser = .ok opts) (hn : optGet H opts "name" = .ok n) (hkey : keyOf H n = .ok key)
    (hself : key ≠ .str "self") (hno : ∀ w ∈ (Srv.init addr tys self).writes es, w.1 ≠ key) :
    Reply R (s.step (.recv H parts)).2 c k .none (ser.pair (.str "KeyError") (.list ((H.transcript c k).map .str))) := by
  have h0 : s.ns.get? key = none := by
    rw [hrun, C14_last_published, if_neg hself, lastOf, Option.or_none, Option.map_eq_none_iff, List.find?_eq_none]
    intro w hw; simpa using hno w (by simpa using hw)
  have ho := get_item_outcome ⟨hc.healthy.isOpen, hc.healthy.alive, hc.healthy.sock⟩ hr hst hu hp hn hkey
  rw [h0] at ho
  obtain ⟨ser', h1, h2⟩ := C11_error_reported (e := .recv H parts) hc ho hk
  simp only [Dict.get?_set, if_true, Option.bind_some, hst, Option.some.injEq] at h1
  subst h1; exact h2

/-- **C14.** A client asking (with return type `auto`) for a published name gets the object published last: a proxy
resolving to that very object if its type is not among the serialize types, else its value as the serializer keeps
it. -/
theorem C14_known_name {addr : String} {tys : List Ty} {self : Val} {es : List Ev} {s : Srv} {H : Heap} {R parts c k st b ser opts n key v}
    (hrun : s = ((Srv.init addr tys self).run es).1) (hc : Connected H R s)
    (hr : readOne H parts = .ok (c, ⟨k, "get_item", "auto", st, b⟩)) (hst : serOf st = some ser) (hu : H.utf8 c ≠ none) (hk : 0 ≤ k)
    (hp : Msg.payload H s ⟨k, "get_item", "auto", st, b⟩ ser = .ok opts) (hn : optGet H opts "name" = .ok n) (hkey : keyOf H n = .ok key)
    (hlast : lastOf ((Srv.init addr tys self).writes es) key = some v) :
    (v.isinstance s.tys = false → ∃ p, Reply R (s.step (.recv H parts)).2 c k (.proxy p) .none ∧ p.addr = s.addr ∧ p.attrs = [] ∧
      (s.step (.recv H parts)).1.refs.lookup p.oid = .ok (H.ident v)) ∧
    (v.isinstance s.tys = true → ser.Serializable H.lib s.tys v → ser.Sendable R v →
      ∃ rv, Reply R (s.step (.recv H parts)).2 c k rv .none ∧
        ser.Arrives H.lib s.tys (ByProxy (s.sendEnv H) R (s.step (.recv H parts)).1.refs) v rv) := by
  have h0 : s.ns.get? key = some v := by rw [hrun, C14_last_published, hlast]; rfl
  have ho := get_item_outcome ⟨hc.healthy.isOpen, hc.healthy.alive, hc.healthy.sock⟩ hr hst hu hp hn hkey
  rw [h0] at ho
  constructor
  · intro hv
    obtain ⟨p, rs, h1, h2, h3, h4, _⟩ := C12_result_by_proxy (e := .recv H parts) hc ho hk (Or.inr ⟨rfl, hv⟩)
    exact ⟨p, h1, h2, h3, h4⟩
  · intro hv h1 h2
    exact C11_result_reported (e := .recv H parts) hc ho hk (by decide) (fun _ => hv) (by simp [hst]) h1 h2

/-- A publishes 5 under x, the server's process publishes an object under x, B publishes 5 under x again, badly -/
def exNames : List Ev := [msg 65 [1] 11 20 30 [2], .publish heap (.str "x") (.obj 7 [.user 1]), msg 66 [1] 11 20 31 [9]]
example : srv.writes exNames = [(.str "x", .int 5), (.str "x", .obj 7 [.user 1])] := rfl
example : lastOf (srv.writes exNames) (.str "x") = some (.obj 7 [.user 1]) := rfl
/-- the hypotheses of `C14_known_name` and `C14_unknown_name` about the request -/
example : readOne heap [[66], [2], [10], [20], [30], [1]] = .ok ([66], ⟨2, "get_item", "auto", "msgpack", [1]⟩) ∧
    Msg.payload heap (srv.run exNames).1 ⟨2, "get_item", "auto", "msgpack", [1]⟩ .msgpack = .ok (.dict [(.str "name", .str "x")]) ∧
    optGet heap (.dict [(.str "name", .str "x")]) "name" = .ok (.str "x") ∧ keyOf heap (.str "x") = .ok (.str "x") := ⟨rfl, rfl, rfl, rfl⟩

/-! ## C15 -/

/-- the server after the start of an action -/
def Started.srv : Started → Srv
  | .finished s _ _ => s
  | .running s _ _ => s

theorem action_reg (H : Heap) (s : Srv) (c a opts) : (s.action H c a opts).srv.closed = false →
    s.closed = false ∧ (s.action H c a opts).srv.registered = s.registered := by
  unfold Srv.action
  split
  · split
    · simp [Started.srv]
    · split <;> simp [Started.srv]
  · simp [Started.srv]
  · obtain ⟨t, h⟩ := deleteAction_state H s opts
    generalize s.deleteAction H opts = x at h ⊢
    obtain ⟨s1, r⟩ := x
    simp only at h; subst h; simp [Started.srv]
  · simp [Started.srv]
  · split <;> simp [Started.srv]
  · split
    · simp [Started.srv]
    · split <;> simp [Started.srv]
  · simp [Started.srv]
  · obtain ⟨b, h, _⟩ := closeAction_state s c
    generalize s.closeAction c = x at h ⊢
    obtain ⟨s1, o, r⟩ := x
    simp only at h; subst h; simp [Started.srv]
  · simp [Started.srv]

theorem finish_reg (H : Heap) (s : Srv) (c k rt cl r) : (s.finish H c k rt cl r).1.registered = s.registered ∧
    (s.finish H c k rt cl r).1.closed = s.closed := by
  obtain ⟨t, b, d, h, _⟩ := finish_state H s c k rt cl r
  rw [h]; exact ⟨rfl, rfl⟩

theorem step_reg {s : Srv} (h : s.closed = false → s.registered = true) (e : Ev) :
    (s.step e).1.closed = false → (s.step e).1.registered = true := by
  cases e with
  | ret H r =>
    simp only [Srv.step]
    split
    · exact h
    · rw [(finish_reg ..).1, (finish_reg ..).2]; exact h
  | mkProxy H v kw => exact h
  | publish H n v =>
    simp only [Srv.step]
    split <;> exact h
  | recv H parts =>
    simp only [Srv.step]
    split
    · exact h
    split
    · exact h
    split
    · exact h
    · rename_i c m _
      simp only
      rcases process_split H s c m with ⟨e, h1, _⟩ | ⟨ser, cs, opts, _, _, _, ⟨s1, o, r, h2, h1⟩ | ⟨s1, o, task, h2, h1⟩⟩
      · rw [h1, (finish_reg ..).1, (finish_reg ..).2]; exact h
      · have := action_reg H { s with clients := s.clients.set c m.serType } c m.action opts
        rw [h2] at this
        rw [h1]; simp only [(finish_reg ..).1, (finish_reg ..).2]
        intro h3
        exact (this h3).2.trans (h (this h3).1)
      · have := action_reg H { s with clients := s.clients.set c m.serType } c m.action opts
        rw [h2] at this
        rw [h1]
        intro h3
        exact (this h3).2.trans (h (this h3).1)

theorem run_reg : ∀ (es : List Ev) {s : Srv}, (s.closed = false → s.registered = true) →
    (s.run es).1.closed = false → (s.run es).1.registered = true
  | [], _, h => h
  | e :: es, s, h => run_reg es (step_reg h e)

/-- what a readable `close` request does -/
theorem close_step {s : Srv} {H : Heap} {parts c m ser opts} (hs : s.Serving) (hreg : s.registered = true) (hwf : s.clients.WF)
    (hr : readOne H parts = .ok (c, m)) (ha : m.action = "close") (hst : serOf m.serType = some ser) (hu : H.utf8 c ≠ none)
    (hp : m.payload H s ser = .ok opts) (hsers : ∀ c' st, c' ≠ c → s.clients.get? c' = some st → serOf st ≠ none) :
    ∃ o, Outcome s (.recv H parts) c m.reqId m.returnType (.ok (.bool true))
        { s with clients := s.clients.set c m.serType, closed := true, registered := false } o ∧
      (∀ c' ser, countDisconnects c' ser o = if c' ≠ c ∧ (s.clients.get? c').bind serOf = some ser then 1 else 0) ∧
      countSends c o = 0 ∧ (∀ c', c' ≠ c → countSends c' o = if (s.clients.get? c').isSome then 1 else 0) ∧
      s.step (.recv H parts) = ((({ s with clients := s.clients.set c m.serType, closed := true, registered := false } : Srv).finish H c m.reqId m.returnType true (.ok (.bool true))).1,
        .accept c m.reqId m.action m.serType :: o ++
          (({ s with clients := s.clients.set c m.serType, closed := true, registered := false } : Srv).finish H c m.reqId m.returnType true (.ok (.bool true))).2) := by
  obtain ⟨b1, b2, b3, b4⟩ := broadcast_spec c (s.clients.set c m.serType) (Dict.wf_set hwf _ _) (by
    intro c' st' hc hm
    have : (s.clients.set c m.serType).get? c' = some st' := Dict.get?_of_mem (Dict.wf_set hwf _ _) hm
    rw [Dict.get?_set, if_neg (Ne.symm hc)] at this
    exact hsers c' st' hc this)
  obtain ⟨o, r, hb⟩ : ∃ o r, broadcast c (s.clients.set c m.serType) = (o, r) := ⟨_, _, rfl⟩
  rw [hb] at b1 b2 b3 b4
  simp only at b1 b2 b3 b4
  subst b1
  have hact : Srv.action H { s with clients := s.clients.set c m.serType } c m.action opts =
      .finished { s with clients := s.clients.set c m.serType, closed := true, registered := false } o (.ok (.bool true)) := by
    rw [ha]
    simp only [Srv.action, Srv.closeAction, hb, hreg, if_true]
  refine ⟨o, ⟨m.action, m.serType, m.opts, ser, opts, hr, hs, hst, hu, hp, hact⟩, ?_, b3, ?_, ?_⟩
  · intro c' ser'
    rw [b2]
    by_cases hc : c' = c
    · simp [hc]
    · simp [hc, Dict.get?_set, Ne.symm hc]
  · intro c' hc
    rw [b4 c' hc, Dict.get?_set, if_neg (Ne.symm hc)]
  · have hst' : s.step (.recv H parts) = ((s.process H c m).1, .accept c m.reqId m.action m.serType :: (s.process H c m).2) := by
      obtain ⟨h1, h2, h3⟩ := hs
      simp only [Srv.step, h1, h2, h3, hr, Bool.or_self, Bool.false_eq_true, Bool.true_eq_false, if_false]
    rw [hst']
    rcases process_split H s c m with ⟨e, _, h5⟩ | ⟨ser', cs, opts', h5, h6, h7, ⟨s1, o1, r1, h8, h9⟩ | ⟨s1, o1, task, h8, h9⟩⟩
    · rcases h5 with h5 | h5 | ⟨ser', h5, h6⟩
      · rw [hst] at h5; simp at h5
      · exact absurd h5 hu
      · rw [hst] at h5; simp only [Option.some.injEq] at h5; subst h5
        rw [hp] at h6; simp at h6
    · rw [hst] at h5; simp only [Option.some.injEq] at h5; subst h5
      rw [hp] at h7; simp only [Except.ok.injEq] at h7; subst h7
      rw [hact] at h8; simp only [Started.finished.injEq] at h8
      obtain ⟨rfl, rfl, rfl⟩ := h8
      rw [h9, decide_eq_true ha]
      rfl
    · rw [hst] at h5; simp only [Option.some.injEq] at h5; subst h5
      rw [hp] at h7; simp only [Except.ok.injEq] at h7; subst h7
      rw [hact] at h8; simp at h8

/-- **C15.** When, after any history with observations `os`, a serving server handles a `close` request of client `c`
(and every other client last named a supported serializer), every other client it ever read a message from is sent
exactly one message: a disconnect message in the serializer that client named last. Nobody else is sent anything, and `c`
itself at most a reply. -/
theorem C15_notifies {addr : String} {tys : List Ty} {self : Val} {es : List Ev} {s : Srv} {os : List Out}
    (hrun : (Srv.init addr tys self).run es = (s, os)) {H : Heap} {parts c m ser opts} (hs : s.Serving)
    (hr : readOne H parts = .ok (c, m)) (ha : m.action = "close") (hst : serOf m.serType = some ser) (hu : H.utf8 c ≠ none)
    (hp : m.payload H s ser = .ok opts) (hsers : ∀ c' st, c' ≠ c → lastOf (acceptedBy os) c' = some st → serOf st ≠ none) :
    (∀ c', c' ≠ c → countSends c' (s.step (.recv H parts)).2 = if c' ∈ (acceptedBy os).map (·.1) then 1 else 0) ∧
    (∀ c' ser', c' ≠ c → countDisconnects c' ser' (s.step (.recv H parts)).2 =
      if (lastOf (acceptedBy os) c').bind serOf = some ser' then 1 else 0) ∧
    countSends c (s.step (.recv H parts)).2 ≤ (if 0 ≤ m.reqId then 1 else 0) := by
  have hcl := run_clients es (Srv.init addr tys self)
  rw [hrun] at hcl
  simp only [Srv.init] at hcl
  have hget : ∀ c', s.clients.get? c' = lastOf (acceptedBy os) c' := by
    intro c'; rw [hcl, addClients_get]; simp
  have hwf : s.clients.WF := by rw [hcl]; exact addClients_wf _ _ (by simp [Dict.WF])
  have hreg : s.registered = true := by
    have := run_reg es (s := Srv.init addr tys self) (fun _ => rfl)
    rw [hrun] at this; exact this hs.1
  obtain ⟨o, _, h1, h2, h3, h4⟩ := close_step hs hreg hwf hr ha hst hu hp (fun c' st hc h => hsers c' st hc (by rw [← hget]; exact h))
  have hfin : ∀ (s : Srv) c', c' ≠ c → countSends c' (s.finish H c m.reqId m.returnType true (.ok (.bool true))).2 = 0 ∧
      ∀ ser', countDisconnects c' ser' (s.finish H c m.reqId m.returnType true (.ok (.bool true))).2 = 0 := by
    intro s c' hc
    rcases finish_shape H s c m.reqId m.returnType true (.ok (.bool true)) with ⟨_, _, _, _, _, h⟩ | ⟨_, _, h⟩ | ⟨_, h | ⟨_, h⟩⟩ <;> rw [h] <;>
      simp [countSends, countDisconnects, Ne.symm hc]
  have hmem : ∀ (l : List (Bytes × String)) c', (lastOf l c').isSome = decide (c' ∈ l.map (·.1)) := by
    intro l c'
    induction l with
    | nil => simp [lastOf_nil]
    | cons a l ih =>
      rw [lastOf_cons, Option.isSome_or, ih]
      by_cases h : a.1 = c'
      · simp [h]
      · simp [h, Ne.symm h]
  rw [h4]
  refine ⟨?_, ?_, ?_⟩
  · intro c' hc
    rw [List.cons_append, show ∀ (x : Out) l, x :: l = [x] ++ l from fun _ _ => rfl, countSends_append, countSends_append, (hfin _ c' hc).1, h3 c' hc, hget, hmem]
    simp only [countSends, List.countP_singleton, decide_eq_true_eq, Bool.false_eq_true, if_false]; omega
  · intro c' ser' hc
    rw [List.cons_append, show ∀ (x : Out) l, x :: l = [x] ++ l from fun _ _ => rfl, countDisconnects_append, countDisconnects_append, (hfin _ c' hc).2, h1, hget]
    simp [countDisconnects, hc]
  · rw [List.cons_append, show ∀ (x : Out) l, x :: l = [x] ++ l from fun _ _ => rfl, countSends_append, countSends_append, h2]
    rcases finish_shape H { s with clients := s.clients.set c m.serType, closed := true, registered := false } c m.reqId m.returnType true (.ok (.bool true))
      with ⟨hk, _, _, _, _, h⟩ | ⟨hk, _, h⟩ | ⟨hk, h | ⟨_, h⟩⟩ <;> rw [h]
    · simp [countSends, hk]
    · simp [countSends, hk]
    · simp [countSends]
    · simp [countSends]

/-- **C15.** The client that asked for it (and for a reply, not as proxy) reads the reply `True`; with
`C15_notifies`, this is the only message it is sent. -/
theorem C15_closer_reply {s : Srv} {H : Heap} {R parts c m ser opts} (hc : Connected H R s) (hreg : s.registered = true) (hwf : s.clients.WF)
    (hr : readOne H parts = .ok (c, m)) (ha : m.action = "close") (hst : serOf m.serType = some ser) (hu : H.utf8 c ≠ none)
    (hp : m.payload H s ser = .ok opts) (hk : 0 ≤ m.reqId) (hrt : m.returnType ≠ "proxy") :
    Reply R (s.step (.recv H parts)).2 c m.reqId (.bool true) .none := by
  have hh := hc.healthy
  obtain ⟨o, ho, _⟩ := close_step ⟨hh.isOpen, hh.alive, hh.sock⟩ hreg hwf hr ha hst hu hp (fun c' st _ h => hh.sers c' st h)
  have hb : Ty.int ∈ s.tys := hh.types _ (by decide)
  obtain ⟨rv, h1, h2⟩ := C11_result_reported (e := .recv H parts) (ser := ser) hc ho hk hrt
    (by intro _; simp only [Val.isinstance, Val.types, List.any_eq_true]; exact ⟨.int, by simp, by simpa using hb⟩)
    (by simp [hst]) (by cases ser <;> simp [Ser.Serializable, Packable, JPackable, Val.depth, Val.jdepth])
    (by cases ser <;> simp [Ser.Sendable, Sendable, JSendable])
  have : rv = .bool true := by
    cases ser <;> simpa [Ser.Arrives, Arrives, JArrives] using h2
  subst this; exact h1

/-- A and B sent messages, B changed its serializer -/
def exKnown : List Ev := [msg 65 [1] 14 20 30 [], msg 66 [1] 14 20 30 [], msg 66 [2] 14 20 31 []]
example : (srv.run exKnown).1.Serving ∧ readOne heap [[65], [2], [12], [20], [30], []] = .ok ([65], ⟨2, "close", "auto", "msgpack", []⟩) ∧
    acceptedBy (srv.run exKnown).2 = [([65], "msgpack"), ([66], "msgpack"), ([66], "json")] := ⟨⟨rfl, rfl, rfl⟩, rfl, rfl⟩
/-- B is told in JSON, A gets the reply only -/
example : countDisconnects [66] .json ((srv.run exKnown).1.step (msg 65 [2] 12 20 30 [])).2 = 1 ∧
    countSends [66] ((srv.run exKnown).1.step (msg 65 [2] 12 20 30 [])).2 = 1 ∧
    countSends [65] ((srv.run exKnown).1.step (msg 65 [2] 12 20 30 [])).2 = 1 := by decide +kernel
/-- Without the hypothesis on serializers the code does not do this: B named an unsupported one in a message without
reply, so A's close request fails and B (or any client known later than B) is not told, while the server is closed. -/
example : let s := (srv.run [msg 66 [0, 1] 14 20 32 [], msg 67 [0, 1] 14 20 30 []]).1.step (msg 65 [2] 12 20 30 [])
    s.1.closed = true ∧ s.1.registered = true ∧ countSends [66] s.2 = 0 ∧ countSends [67] s.2 = 0 := by decide +kernel

/-! ## C16 -/

/-- what the server's own process publishes -/
def localWrites (es : List Ev) : List (Key × Val) :=
  es.filterMap fun e => match e with
    | .publish H n v => match keyOf H n with
      | .ok k => some (k, v)
      | .error _ => none
    | _ => none

theorem writes_stopped : ∀ (es : List Ev) {s : Srv}, s.sockOpen = false → s.writes es = localWrites es
  | [], _, _ => rfl
  | e :: es, s, h => by
    simp only [Srv.writes]
    rw [writes_stopped es (step_stopped h e).1]
    cases e with
    | recv H parts => simp [Srv.written, h, localWrites]
    | ret H r => simp [Srv.written, localWrites]
    | mkProxy H v kw => simp [Srv.written, localWrites]
    | publish H n v =>
      simp only [Srv.written, localWrites, List.filterMap_cons]
      cases keyOf H n <;> rfl

theorem close_handled {s : Srv} {H : Heap} {parts c m} (hr : readOne H parts = .ok (c, m)) (ha : m.action = "close")
    (hd : .done c m.reqId none ∈ (s.step (.recv H parts)).2) : (s.step (.recv H parts)).1.sockOpen = false := by
  have hfin : ∀ (s : Srv) r, .done c m.reqId none ∈ (s.finish H c m.reqId m.returnType true r).2 →
      (s.finish H c m.reqId m.returnType true r).1.sockOpen = false := by
    intro s r
    have hn := respond_noAccept H s c m.reqId m.returnType r
    unfold Srv.finish
    generalize s.respond H c m.reqId m.returnType r = y at hn ⊢
    obtain ⟨s1, o, x⟩ := y
    cases x with
    | none => intro _; rfl
    | some e =>
      intro h
      simp only at hn h
      rcases hn with ⟨_, _, _, _, rfl⟩ | ⟨_, rfl, _⟩ | ⟨_, h', _⟩
      · simp at h
      · simp at h
      · simp at h'
  simp only [Srv.step] at hd ⊢
  split at hd
  · simp at hd
  · rename_i h1
    rw [if_neg h1]
    split at hd
    · simp at hd
    · rename_i h2
      rw [if_neg h2]
      simp only [hr] at hd ⊢
      rcases process_split H s c m with ⟨e, h, _⟩ | ⟨ser, cs, opts, _, _, _, ⟨s1, o, r, h3, h⟩ | ⟨s1, o, task, h3, h⟩⟩
      · rw [h, decide_eq_true ha] at hd ⊢
        exact hfin _ _ (by simpa using hd)
      · rw [h, decide_eq_true ha] at hd ⊢
        refine hfin _ _ ?_
        simp only [List.mem_cons, reduceCtorEq, false_or, List.mem_append] at hd
        refine hd.resolve_left ?_
        intro hm
        rw [ha] at h3
        simp only [Srv.action] at h3
        obtain ⟨b, _, h4⟩ := closeAction_state { s with clients := s.clients.set c m.serType } c
        simp only [Started.finished.injEq] at h3
        rw [h3.2.1] at h4
        obtain ⟨_, _, h5⟩ := h4 _ hm
        simp at h5
      · rw [ha] at h3; simp [Srv.action] at h3

/-- **C16.** Once a server has handled a `close` request (its processing ended without an exception), then whatever
happens afterwards — messages, ends of user code that was still running, anything its process does — it reads no message,
invokes nothing, imports nothing and sends nothing; names change only by its own process. -/
theorem C16_nothing_more {s : Srv} {H : Heap} {parts c m} (hr : readOne H parts = .ok (c, m)) (ha : m.action = "close")
    (hd : .done c m.reqId none ∈ (s.step (.recv H parts)).2) (es : List Ev) :
    let s1 := (s.step (.recv H parts)).1
    (∀ x ∈ (s1.run es).2, x.silent = true) ∧ s1.writes es = localWrites es :=
  ⟨(run_stopped es (close_handled hr ha hd)).2, writes_stopped es (close_handled hr ha hd)⟩

theorem step_closed {s : Srv} (h : s.closed = true ∧ s.registered = false) (e : Ev) : (s.step e).1.closed = true ∧ (s.step e).1.registered = false := by
  cases e with
  | ret H r =>
    simp only [Srv.step]
    split
    · exact h
    · rw [(finish_reg ..).1, (finish_reg ..).2]; exact h
  | mkProxy H v kw => exact h
  | publish H n v => simp only [Srv.step]; split <;> exact h
  | recv H parts => simp only [Srv.step, h.1, Bool.true_or, if_true]; exact ⟨trivial, h.2⟩

theorem run_closed : ∀ (es : List Ev) {s : Srv}, s.closed = true ∧ s.registered = false →
    (s.run es).1.closed = true ∧ (s.run es).1.registered = false
  | [], _, h => h
  | e :: es, _, h => run_closed es (step_closed h e)

/-- **C16.** If the request was readable (and the other clients' serializers supported), the server is closed and
unregistered from then on. -/
theorem C16_unregistered {addr : String} {tys : List Ty} {self : Val} {es : List Ev} {s : Srv} {os : List Out}
    (hrun : (Srv.init addr tys self).run es = (s, os)) {H : Heap} {parts c m ser opts} (hs : s.Serving)
    (hr : readOne H parts = .ok (c, m)) (ha : m.action = "close") (hst : serOf m.serType = some ser) (hu : H.utf8 c ≠ none)
    (hp : m.payload H s ser = .ok opts) (hsers : ∀ c' st, c' ≠ c → lastOf (acceptedBy os) c' = some st → serOf st ≠ none) (es' : List Ev) :
    let s1 := ((s.step (.recv H parts)).1.run es').1
    s1.closed = true ∧ s1.registered = false := by
  have hcl := run_clients es (Srv.init addr tys self)
  rw [hrun] at hcl
  simp only [Srv.init] at hcl
  have hget : ∀ c', s.clients.get? c' = lastOf (acceptedBy os) c' := by
    intro c'; rw [hcl, addClients_get]; simp
  have hwf : s.clients.WF := by rw [hcl]; exact addClients_wf _ _ (by simp [Dict.WF])
  have hreg : s.registered = true := by
    have := run_reg es (s := Srv.init addr tys self) (fun _ => rfl)
    rw [hrun] at this; exact this hs.1
  obtain ⟨o, _, _, _, _, h4⟩ := close_step hs hreg hwf hr ha hst hu hp (fun c' st hc h => hsers c' st hc (by rw [← hget]; exact h))
  refine run_closed es' ?_
  rw [h4]
  simp only [(finish_reg ..).1, (finish_reg ..).2, and_self]

/-- the close request of A in the example is handled -/
example : .done [65] 2 none ∈ ((srv.run exKnown).1.step (msg 65 [2] 12 20 30 [])).2 := by
  have : ((srv.run exKnown).1.step (msg 65 [2] 12 20 30 [])).2.getLast? = some (.done [65] 2 none) := rfl
  exact List.mem_of_getLast? this
/-- Limits of C16 in the code: a `close` request that cannot be decoded closes the socket but leaves the server
registered and not closed, and tells nobody; the next message ends its loop with a ZeroMQ error. -/
example : let s := (srv.run exKnown).1.step (msg 65 [2] 12 20 30 [9])
    s.1.sockOpen = false ∧ s.1.closed = false ∧ s.1.registered = true ∧ countSends [66] s.2 = 0 ∧
      (s.1.step (msg 66 [3] 14 20 30 [])).1.dead = true := by decide +kernel

open Ex

/-! ## The theorems on these cases -/

/-- A server with clients A and B and no call running. -/
theorem twoClients_connected {s : Srv} {st1 st2 : String} (h1 : serOf st1 ≠ none) (h2 : serOf st2 ≠ none) (hty : s.tys = defaultTypes) (ha : s.addr = "tcp://a:1") (hs : s.Serving)
    (hc : s.clients = [([65], st1), ([66], st2)]) (hst : s.stack = []) (hr : s.refs = Refs.init) : Connected heap recvB s := by
  refine exConnected _ ⟨by rw [hty]; decide, hs.2.1, hs.1, hs.2.2, ?_, by simp [hst]⟩ ha hty ⟨[], by rw [hr]; exact .init⟩
  intro c st h
  rw [hc] at h
  simp only [Dict.get?] at h
  split at h
  · simp only [Option.some.injEq] at h; subst h; exact h1
  · split at h
    · simp only [Option.some.injEq] at h; subst h; exact h2
    · cases h
theorem exNames_connected : Connected heap recvB (srv.run exNames).1 :=
  twoClients_connected (st1 := "msgpack") (st2 := "json") (by decide) (by decide) rfl rfl ⟨rfl, rfl, rfl⟩ rfl rfl rfl
/-- B asks for the name that was given twice: it gets a proxy of the object given last. -/
example := (C14_known_name (addr := "tcp://a:1") (tys := []) (self := self) (es := exNames) (parts := [[66], [2], [10], [20], [30], [1]]) (c := [66]) (k := 2)
  (st := "msgpack") (b := [1]) (ser := .msgpack) (opts := .dict [(.str "name", .str "x")]) (n := .str "x") (key := .str "x") (v := .obj 7 [.user 1])
  rfl exNames_connected rfl rfl (by decide) (by decide) rfl rfl rfl rfl).1 (by decide)

theorem exKnown_connected : Connected heap recvB (srv.run exKnown).1 :=
  twoClients_connected (st1 := "msgpack") (st2 := "json") (by decide) (by decide) rfl rfl ⟨rfl, rfl, rfl⟩ rfl rfl rfl
/-- A asks for a name nobody has set. -/
example := C14_unknown_name (addr := "tcp://a:1") (tys := []) (self := self) (es := exKnown) (parts := [[65], [2], [10], [20], [30], [1]]) (c := [65]) (k := 2)
  (rt := "auto") (st := "msgpack") (b := [1]) (ser := .msgpack) (opts := .dict [(.str "name", .str "x")]) (n := .str "x") (key := .str "x")
  rfl exKnown_connected rfl rfl (by decide) (by decide) rfl rfl rfl (by decide) (by rw [show (Srv.init "tcp://a:1" [] self).writes exKnown = [] from rfl]; simp)

theorem exKnown_sers : ∀ c' st, c' ≠ [65] → lastOf (acceptedBy (srv.run exKnown).2) c' = some st → serOf st ≠ none := by
  intro c st hc h
  rw [show acceptedBy (srv.run exKnown).2 = [([65], "msgpack"), ([66], "msgpack"), ([66], "json")] from rfl] at h
  simp only [lastOf, Option.map_eq_some_iff] at h
  obtain ⟨w, hw, rfl⟩ := h
  have := List.mem_of_find?_eq_some hw
  simp only [List.reverse_cons, List.reverse_nil, List.nil_append, List.cons_append, List.mem_cons, List.not_mem_nil, or_false] at this
  rcases this with rfl | rfl | rfl <;> decide
example := C15_notifies (addr := "tcp://a:1") (tys := []) (self := self) (es := exKnown) (s := (srv.run exKnown).1) (os := (srv.run exKnown).2) (H := heap)
  (parts := [[65], [2], [12], [20], [30], []]) (c := [65]) (m := ⟨2, "close", "auto", "msgpack", []⟩) (ser := .msgpack) rfl ⟨rfl, rfl, rfl⟩ rfl rfl rfl (by decide) rfl exKnown_sers
example := C15_closer_reply (s := (srv.run exKnown).1)
  (parts := [[65], [2], [12], [20], [30], []]) (c := [65]) (m := ⟨2, "close", "auto", "msgpack", []⟩) (ser := .msgpack) exKnown_connected rfl
  (by rw [show (srv.run exKnown).1.clients = [([65], "msgpack"), ([66], "json")] from rfl]; simp [Dict.WF]) rfl rfl rfl (by decide) rfl (by decide) (by decide)
example (es : List Ev) := C16_nothing_more (s := (srv.run exKnown).1) (H := heap) (parts := [[65], [2], [12], [20], [30], []]) (c := [65]) (m := ⟨2, "close", "auto", "msgpack", []⟩) rfl rfl
  (by
    have : ((srv.run exKnown).1.step (msg 65 [2] 12 20 30 [])).2.getLast? = some (.done [65] 2 none) := rfl
    exact List.mem_of_getLast? this) es
example (es' : List Ev) := C16_unregistered (addr := "tcp://a:1") (tys := []) (self := self) (es := exKnown) (s := (srv.run exKnown).1) (os := (srv.run exKnown).2) (H := heap)
  (parts := [[65], [2], [12], [20], [30], []]) (c := [65]) (m := ⟨2, "close", "auto", "msgpack", []⟩) (ser := .msgpack) rfl ⟨rfl, rfl, rfl⟩ rfl rfl rfl (by decide) rfl exKnown_sers es'

end Verif
