import Verif.Proof.ServerRefs
/-! # What the requester reads from a reply -/
namespace Verif

theorem payload_eq (H : Heap) (s : Srv) (m : Msg) (ser : Ser) :
    (if m.opts = [] then Except.ok Val.none else do ser.loads (s.recvEnv H) (← H.parse ser m.opts)) = m.payload H s ser := by
  unfold Msg.payload
  split
  · rfl
  · cases H.parse ser m.opts <;> rfl

theorem dumps_arrives {L : Lib} {E : SendEnv} {R : RecvEnv} {h t} (hl : Link L E R) (hr : Reach E.idOf h t) (ha : Alive E h)
    {ser : Ser} {k : Int} {rval err : Val} {t' w} (h1 : ser.Sendable R rval) (h2 : ser.Sendable R err)
    (hd : ser.dumps E t (replyDict k rval err) = (t', .ok w)) :
    ∃ rv ev, ser.loads R w = .ok (replyDict k rv ev) ∧ ser.Arrives L E.tys (ByProxy E R t') rval rv ∧
      ser.Arrives L E.tys (ByProxy E R t') err ev := by
  cases ser with
  | msgpack =>
    have hs : Sendable R (replyDict k rval err) := by
      simp only [replyDict, Sendable, SendableD]
      exact ⟨⟨by simp [keyOk], by simp [keyEq], by simp [lookupStr, encodeKey]⟩, trivial, trivial, h1, h2, trivial⟩
    obtain ⟨v', hv, har⟩ := (packOk hl.laws hl.sender hl.receiver hl.types hl.notOwner _ t _ t' w (tableOk_of_reach hr ha) hs hd).2.2
    simp only [replyDict, Arrives, ArrivesD] at har
    obtain ⟨d', rfl, v1, r1, rfl, rfl, v2, r2, rfl, rfl, v3, r3, rfl, h3, v4, r4, rfl, h4, rfl⟩ := har
    exact ⟨v3, v4, hv, h3, h4⟩
  | json =>
    have hs : JSendable R (replyDict k rval err) := by
      simp only [replyDict, JSendable, JSendableD]
      exact ⟨⟨by simp [jkey, Val.core], by simp [jkey, Val.core], by simp [jkey, Val.core, encodeKey]⟩, trivial, trivial, h1, h2, trivial⟩
    obtain ⟨v', hv, har⟩ := (jpackOk hl.laws hl.sender hl.receiver hl.types hl.notOwner _ t _ t' w (tableOk_of_reach hr ha) hs hd).2.2
    rw [hl.sender] at har
    simp only [replyDict, JArrives, JArrivesD, jkey, Val.core, Except.ok.injEq] at har
    obtain ⟨d', rfl, s1, v1, r1, rfl, rfl, rfl, s2, v2, r2, rfl, rfl, rfl, s3, v3, r3, rfl, rfl, h3, s4, v4, r4, rfl, rfl, h4, rfl⟩ := har
    exact ⟨v3, v4, hv, h3, h4⟩

theorem sendableL_strs (R : RecvEnv) : ∀ l : List String, SendableL R (l.map .str)
  | [] => trivial
  | _ :: l => ⟨trivial, sendableL_strs R l⟩
theorem jsendableL_strs (R : RecvEnv) : ∀ l : List String, JSendableL R (l.map .str)
  | [] => trivial
  | _ :: l => ⟨trivial, jsendableL_strs R l⟩
theorem arrivesL_strs {tys P} : ∀ {l : List String} {l' : List Val}, ArrivesL tys P (l.map .str) l' → l' = l.map .str
  | [], l', h => h
  | _ :: l, l', h => by
    obtain ⟨v, vs, rfl, h1, h2⟩ := h
    rw [arrivesL_strs h2]; rw [show v = _ from h1]; rfl
theorem jarrivesL_strs {L tys P} : ∀ {l : List String} {l' : List Val}, JArrivesL L tys P (l.map .str) l' → l' = l.map .str
  | [], l', h => h
  | _ :: l, l', h => by
    obtain ⟨v, vs, rfl, h1, h2⟩ := h
    rw [jarrivesL_strs h2]; rw [show v = _ from h1]; rfl

theorem error_sendable (ser : Ser) (R : RecvEnv) (nm : String) (tb : List String) :
    ser.Sendable R (.tuple [.str nm, .list (tb.map .str)]) := by
  cases ser
  · simp only [Ser.Sendable, Sendable, SendableL]; exact ⟨trivial, sendableL_strs R tb, trivial⟩
  · simp only [Ser.Sendable, JSendable, JSendableL]; exact ⟨trivial, jsendableL_strs R tb, trivial⟩

theorem none_sendable (ser : Ser) (R : RecvEnv) : ser.Sendable R .none := by
  cases ser
  · simp only [Ser.Sendable, Sendable]
  · simp only [Ser.Sendable, JSendable]

theorem none_arrives {ser : Ser} {L tys P v} (h : ser.Arrives L tys P .none v) : v = .none := by
  cases ser <;> exact h

theorem error_arrives {ser : Ser} {L tys P nm tb v} (h : ser.Arrives L tys P (.tuple [.str nm, .list (List.map .str tb)]) v) :
    v = ser.pair (.str nm) (.list (tb.map .str)) := by
  cases ser with
  | msgpack =>
    simp only [Ser.Arrives, Arrives, ArrivesL] at h
    obtain ⟨_, rfl, v1, _, rfl, rfl, v2, _, rfl, ⟨l, rfl, hl⟩, rfl⟩ := h
    rw [arrivesL_strs hl]; rfl
  | json =>
    simp only [Ser.Arrives, JArrives, JArrivesL] at h
    obtain ⟨_, rfl, v1, _, rfl, rfl, v2, _, rfl, ⟨l, rfl, hl⟩, rfl⟩ := h
    rw [jarrivesL_strs hl]; rfl

theorem proxy_sendable (ser : Ser) {R : RecvEnv} {p : Proxy} {v} (h : received R p = .ok v) : ser.Sendable R (.proxy p) := by
  cases ser
  · simp only [Ser.Sendable, Sendable]; exact ⟨v, h⟩
  · simp only [Ser.Sendable, JSendable]; exact ⟨v, h⟩

theorem proxy_arrives {ser : Ser} {L tys E R t p v} (h : ser.Arrives L tys (ByProxy E R t) (.proxy p) v) : received R p = .ok v := by
  cases ser <;> exact h

/-- a reply with a proxy can always be serialized -/
theorem proxyReply_dumps {E : SendEnv} (hL : E.lib.Laws) (hty : ∀ ty ∈ defaultTypes, ty ∈ E.tys)
    (hs : E.server ≠ none) (ser : Ser) (t : Refs) (k : Int) (p : Proxy) :
    ∃ t' w, ser.dumps E t (replyDict k (.proxy p) .none) = (t', .ok w) := by
  cases ser with
  | msgpack =>
    simp only [Ser.dumps, msgpackDumps, msgpackDepth]
    refine (packT hL hty 512 t _ ?_ ?_).1 (Or.inl hs)
    · simp [replyDict, Packable, PackableD, keyOk]
    · simp only [replyDict, Val.depth, depthD]
      split <;> omega
  | json =>
    simp only [Ser.dumps, jsonDumps, jsonDepth]
    refine (jpackT hL hty 1000 t _ ?_ ?_).1 (Or.inl hs)
    · simp [replyDict, JPackable, JPackableD, jkey, Val.core]
    · simp only [replyDict, Val.jdepth, jdepthD]
      omega

/-- the circumstances in which a server can answer a client -/
structure Answering (H : Heap) (R : RecvEnv) (s : Srv) (c : Bytes) : Prop where
  link : Link H.lib (s.sendEnv H) R
  live : LiveTable H s.refs
  sock : s.sockOpen = true
  can : CanAnswer H.utf8 s c

theorem Answering.refs {H R s c} (h : Answering H R s c) {t} (hp : Path H.idOf H.ident s.refs t) : Answering H R { s with refs := t } c :=
  ⟨h.link, h.live.path hp, h.sock, h.can⟩

/-- the reply for these values, if it can be serialized -/
theorem sendResult_reads {H R s c} (ha : Answering H R s c) {k rval err bad ser t w} (hb : bad = false)
    (hc : (s.clients.get? c).bind serOf = some ser) (h1 : ser.Sendable R rval) (h2 : ser.Sendable R err)
    (hd : ser.dumps (s.sendEnv H) s.refs (replyDict k rval err) = (t, .ok w)) :
    ∃ rv ev, s.sendResult H c k rval err bad = ({ s with refs := t }, .ok [.send c ser w]) ∧
      ser.loads R w = .ok (replyDict k rv ev) ∧ ser.Arrives H.lib s.tys (ByProxy (s.sendEnv H) R t) rval rv ∧
      ser.Arrives H.lib s.tys (ByProxy (s.sendEnv H) R t) err ev := by
  obtain ⟨h0, hr, hal⟩ := ha.live.ok s
  obtain ⟨rv, ev, h3, h4, h5⟩ := dumps_arrives ha.link hr hal h1 h2 hd
  refine ⟨rv, ev, ?_, h3, h4, h5⟩
  obtain ⟨cs, hcs⟩ := Option.ne_none_iff_exists'.1 ha.can.1
  simp [Srv.sendResult, hcs, hc, hb, hd, ha.sock]

theorem sendError_reads {H R s c} (ha : Answering H R s c) (hb : H.tbBad = false) (k : Int) (e : Exc) :
    ∃ t ser w, s.sendError H c k e = ({ s with refs := t }, .ok [.send c ser w]) ∧ (s.clients.get? c).bind serOf = some ser ∧
      ser.loads R w = .ok (replyDict k .none (ser.pair (.str e.name) (.list ((H.transcript c k).map .str)))) := by
  obtain ⟨ser, hser⟩ := Option.ne_none_iff_exists'.1 ha.can.2
  obtain ⟨t, w, hd⟩ := errorReply_dumps (E := s.sendEnv H) (ha.link.sender ▸ ha.link.laws) ha.link.types (by simp [Srv.sendEnv])
    ser s.refs k e.name (H.transcript c k)
  obtain ⟨rv, ev, h1, h2, h3, h4⟩ := sendResult_reads ha (bad := H.tbBad) hb hser (none_sendable ser R) (error_sendable ser R e.name (H.transcript c k)) hd
  obtain ⟨cs, hcs⟩ := Option.ne_none_iff_exists'.1 ha.can.1
  refine ⟨t, ser, w, ?_, hser, ?_⟩
  · rw [Srv.sendError, hcs]; exact h1
  · rw [h2, none_arrives h3, error_arrives h4]

theorem reply_of {R os c ser w k rv ev} (h : Out.send c ser w ∈ os) (hl : ser.loads R w = .ok (replyDict k rv ev)) :
    Reply R os c k rv ev :=
  ⟨ser, w, _, h, hl, by simp [lookupStr], by simp [lookupStr], by simp [lookupStr], by simp [lookupStr]⟩

theorem step_outcome {s : Srv} {e c k rt r s1 o} (h : Outcome s e c k rt r s1 o) :
    ∃ cl pre, (s.step e).1 = (s1.finish e.heap c k rt cl r).1 ∧ (s.step e).2 = pre ++ (s1.finish e.heap c k rt cl r).2 := by
  cases e with
  | recv H parts =>
    obtain ⟨a, st, b, ser, opts, h1, ⟨h2, h3, h4⟩, h5, h6, h7, h8⟩ := h
    obtain ⟨cs, h6⟩ := Option.ne_none_iff_exists'.1 h6
    rw [← payload_eq] at h7
    refine ⟨decide (a = "close"), .accept c k a st :: o, ?_⟩
    have hst : s.step (.recv H parts) = ((s.process H c ⟨k, a, rt, st, b⟩).1, .accept c k a st :: (s.process H c ⟨k, a, rt, st, b⟩).2) := by
      simp [Srv.step, h1, h2, h3, h4]
    have hp : s.process H c ⟨k, a, rt, st, b⟩ = ((s1.finish H c k rt (decide (a = "close")) r).1,
        o ++ (s1.finish H c k rt (decide (a = "close")) r).2) := by
      simp only [Srv.process, h5, h6]
      simp only at h7
      rw [h7]
      simp only [h8]
    rw [hst, hp]
    exact ⟨rfl, rfl⟩
  | ret H r0 =>
    obtain ⟨task, st, h1, h2, h3, h4⟩ := h
    subst h2 h3
    refine ⟨false, [], ?_⟩
    simp [Srv.step, h1, Ev.heap]
  | publish H n v => exact h.elim
  | mkProxy H v kw => exact h.elim

theorem finish_error_reply {H R s c} (ha : Answering H R s c) (hb : H.tbBad = false) {k : Int} (hk : 0 ≤ k) (rt cl) (e : Exc) :
    ∃ ser, (s.clients.get? c).bind serOf = some ser ∧
      Reply R (s.finish H c k rt cl (.error e)).2 c k .none (ser.pair (.str e.name) (.list ((H.transcript c k).map .str))) := by
  obtain ⟨t, ser, w, h1, h2, h3⟩ := sendError_reads ha hb k e
  refine ⟨ser, h2, reply_of (w := w) ?_ h3⟩
  simp [Srv.finish, Srv.respond, hk, h1]

theorem finish_value_reply {H R s c} (ha : Answering H R s c) {k : Int} (hk : 0 ≤ k) {rt} (cl) {v : Val} {ser t w}
    (hrt : s.convert H rt v = (s, v))
    (hc : (s.clients.get? c).bind serOf = some ser) (hs : ser.Sendable R v)
    (hd : ser.dumps (s.sendEnv H) s.refs (replyDict k v .none) = (t, .ok w)) :
    ∃ rv, Reply R (s.finish H c k rt cl (.ok v)).2 c k rv .none ∧
      ser.Arrives H.lib s.tys (ByProxy (s.sendEnv H) R (s.finish H c k rt cl (.ok v)).1.refs) v rv := by
  obtain ⟨rv, ev, h1, h2, h3, h4⟩ := sendResult_reads ha (bad := false) rfl hc hs (none_sendable ser R) hd
  refine ⟨rv, reply_of (ser := ser) (w := w) ?_ (by rw [h2, none_arrives h4]), ?_⟩
  · simp [Srv.finish, Srv.respond, hk, hrt, h1]
  · have : (s.finish H c k rt cl (.ok v)).1.refs = t := by
      simp only [Srv.finish, Srv.respond, hk, hrt, h1, if_true]
      split <;> rfl
    rw [this]; exact h3

/-- the result cannot be serialized: an error reply is sent instead -/
theorem finish_unserializable_reply {H R s c} (ha : Answering H R s c) (hb : H.tbBad = false) {k : Int} (hk : 0 ≤ k) {rt} (cl) {v : Val} {ser t e}
    (hrt : s.convert H rt v = (s, v)) (hc : (s.clients.get? c).bind serOf = some ser) 
    (hd : ser.dumps (s.sendEnv H) s.refs (replyDict k v .none) = (t, .error e)) :
    Reply R (s.finish H c k rt cl (.ok v)).2 c k .none (ser.pair (.str e.name) (.list ((H.transcript c k).map .str))) := by
  obtain ⟨cs, hcs⟩ := Option.ne_none_iff_exists'.1 ha.can.1
  have h1 : s.sendResult H c k v .none = ({ s with refs := t }, .error e) := by
    simp [Srv.sendResult, hcs, hc, hd]
  have hp : Path H.idOf H.ident s.refs t := by
    have := sendResult_path H s c k v .none false
    rw [h1] at this; exact this
  obtain ⟨t', ser', w, h2, h3, h4⟩ := sendError_reads (ha.refs hp) hb k e
  have : ser' = ser := by rw [show ({ s with refs := t } : Srv).clients = s.clients from rfl, hc] at h3; simpa using h3.symm
  subst this
  refine reply_of (w := w) (ser := ser') ?_ h4
  simp [Srv.finish, Srv.respond, hk, hrt, h1, h2]

theorem getProxy_plain (idOf) (t : Refs) (o : Obj) : ∃ t' oid rid, t.getProxy idOf o [] = (t', .ok (oid, rid)) ∧ rid = t.nextRid := by
  refine ⟨_, _, _, rfl, rfl⟩

/-- an entry with its reference stays while proxies are handed out -/
def Keeps (t t' : Refs) : Prop := ∀ oid o rs, t.refs.get? oid = some (o, rs) → ∃ rs', t'.refs.get? oid = some (o, rs') ∧ ∀ r ∈ rs, r ∈ rs'

theorem getObjectId_refs (idOf) (t : Refs) (o : Obj) : (t.getObjectId idOf o).1.refs = t.refs := (getObjectId_spec idOf t o).1

theorem getProxy_refs (idOf) (t : Refs) (o : Obj) : ∃ oid o' rs, (t.getProxy idOf o []).1.refs = t.refs.set oid (o', rs) ∧
    (t.getProxy idOf o []).2 = .ok (oid, t.nextRid) ∧ t.nextRid ∈ rs ∧
    (∀ o1 rs1, t.refs.get? oid = some (o1, rs1) → o' = o1 ∧ ∀ r ∈ rs1, r ∈ rs) ∧ (t.refs.get? oid = none → o' = o) := by
  have h := getObjectId_refs idOf { t with nextRid := t.nextRid + 1 } o
  simp only [Refs.getProxy, List.all_nil, if_true]
  generalize ({ t with nextRid := t.nextRid + 1 } : Refs).getObjectId idOf o = y at h ⊢
  obtain ⟨t1, oid⟩ := y
  simp only at h ⊢
  rw [h]
  refine ⟨oid, _, _, rfl, rfl, ?_, ?_, ?_⟩
  · simp [mem_setAdd]
  · intro o1 rs1 h1
    simp only [h1, Option.getD_some, true_and]
    exact fun r hr => by simp [mem_setAdd, hr]
  · intro h1; simp [h1]

theorem keeps_grows (H : Heap) (s : Srv) : Grows (s.sendEnv H) Keeps where
  refl t oid o rs h := ⟨rs, h, fun _ h => h⟩
  trans a b c h1 h2 oid o rs h := by
    obtain ⟨rs1, h3, h4⟩ := h1 oid o rs h
    obtain ⟨rs2, h5, h6⟩ := h2 oid o rs1 h3
    exact ⟨rs2, h5, fun r hr => h6 r (h4 r hr)⟩
  get t v oid o rs h := by
    obtain ⟨oid', o', rs', h1, _, _, h2, _⟩ := getProxy_refs (s.sendEnv H).idOf t ((s.sendEnv H).ident v)
    rw [h1, Dict.get?_set]
    split
    · rename_i he; subst he
      obtain ⟨rfl, h4⟩ := h2 o rs h
      exact ⟨rs', rfl, h4⟩
    · exact ⟨rs, h, fun _ h => h⟩

/-- the proxy handed out refers to the object -/
theorem proxyTo_spec {H : Heap} {s : Srv} (hl : LiveTable H s.refs) (v : Val) :
    ∃ t p rs, s.proxyTo H v = ({ s with refs := t }, .proxy p) ∧ p.addr = s.addr ∧ p.attrs = [] ∧ p.typeStr = H.typeStr v ∧
      t.refs.get? p.oid = some (H.ident v, rs) ∧ p.rid ∈ rs ∧ p.rid = s.refs.nextRid := by
  obtain ⟨hs, h0, hr, hh⟩ := hl
  obtain ⟨oid, o', rs, h1, h2, h3, h4, h5⟩ := getProxy_refs H.idOf s.refs (H.ident v)
  have hd : IdsDistinct H.idOf h0 (.get (H.ident v) []) := fun x hx he => hh x hx v he
  have hr' := (Reach.step (.get (H.ident v) []) hr hd).inv
  generalize hg : s.refs.getProxy H.idOf (H.ident v) [] = y at h1 h2
  obtain ⟨t, r⟩ := y
  simp only at h1 h2; subst h2
  have hst : s.refs.step H.idOf (.get (H.ident v) []) = (t, .proxy oid s.refs.nextRid) := by simp [Refs.step, hg]
  rw [hst, ] at hr'
  have hmem : (⟨oid, s.refs.nextRid, H.ident v⟩ : Handle) ∈ outstanding (h0 ++ [(.get (H.ident v) [], .proxy oid s.refs.nextRid)]) := by
    rw [outstanding_append_get]; simp
  obtain ⟨rs', h6, h7⟩ := (hr'.out _).1 hmem
  refine ⟨t, ⟨s.addr, oid, s.refs.nextRid, H.typeStr v, []⟩, rs', ?_, rfl, rfl, rfl, h6, h7, rfl⟩
  simp [Srv.proxyTo, hg]

theorem finish_proxy_reply {H R s c} (ha : Answering H R s c) {k : Int} (hk : 0 ≤ k) {rt} (cl) {v : Val}
    (hrt : s.convert H rt v = s.proxyTo H v) :
    ∃ p rs, Reply R (s.finish H c k rt cl (.ok v)).2 c k (.proxy p) .none ∧ p.addr = s.addr ∧ p.attrs = [] ∧
      p.typeStr = H.typeStr v ∧ p.rid = s.refs.nextRid ∧
      (s.finish H c k rt cl (.ok v)).1.refs.refs.get? p.oid = some (H.ident v, rs) ∧ p.rid ∈ rs := by
  obtain ⟨t, p, rs, h1, h2, h3, h4, h5, h6, h7⟩ := proxyTo_spec ha.live v
  have hp : Path H.idOf H.ident s.refs t := by have := proxyTo_path H s v; rw [h1] at this; exact this
  have ha' := ha.refs hp
  obtain ⟨ser, hser⟩ := Option.ne_none_iff_exists'.1 ha.can.2
  obtain ⟨t', w, hd⟩ := proxyReply_dumps (E := s.sendEnv H) (ha.link.sender ▸ ha.link.laws) ha.link.types (by simp [Srv.sendEnv])
    ser t k p
  have hrec : received R p = .ok (.proxy p) := by
    have hn := ha.link.notOwner
    unfold received
    cases hR : R.server with
    | none => rfl
    | some x =>
      obtain ⟨a, u⟩ := x
      have := hn a u hR
      simp only [Srv.sendEnv, ne_eq, Option.some.injEq] at this
      rw [← h2] at this
      simp [this]
  obtain ⟨rv, ev, h8, h9, h10, h11⟩ := sendResult_reads (k := k) ha' (bad := false) rfl hser (proxy_sendable ser hrec) (none_sendable ser R) hd
  have hrv : rv = .proxy p := by
    have h10 := proxy_arrives h10
    rw [hrec] at h10
    simpa using h10.symm
  subst hrv
  obtain ⟨rs', hk1, hk2⟩ := dumps_grows (keeps_grows H s) ser t (replyDict k (.proxy p) .none) p.oid _ rs h5
  rw [hd] at hk1
  refine ⟨p, rs', reply_of (ser := ser) (w := w) ?_ (by rw [h9, none_arrives h11]), h2, h3, h4, h7, ?_, hk2 _ h6⟩
  · simp [Srv.finish, Srv.respond, hk, hrt, h1, h8]
  · have : (s.finish H c k rt cl (.ok v)).1.refs = t' := by
      simp only [Srv.finish, Srv.respond, hk, hrt, h1, h8, if_true]
      split <;> rfl
    rw [this]; exact hk1

end Verif
