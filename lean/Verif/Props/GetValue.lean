import Verif.Props.Requests
import Verif.Model.Proxy
/-!
# C117: the value of a proxy

`proxy._get_value()` and `proxy._undefer()` ask the server for the object a proxy stands for.
-/
namespace Verif

/-! ## Reading a proxy that does not resolve -/

theorem pack_single {E : SendEnv} {n : Nat} {t t' : Refs} {a : String} {x : Val} {w : Wire} (h : pack E (n + 2) t (.dict [(.str a, x)]) = (t', .ok w)) :
    ∃ w', w = .map [(.str a, w')] ∧ pack E (n + 1) t x = (t', .ok w') := by
  rw [pack] at h
  simp only [mapS, pairS] at h
  rw [show pack E (n + 1) t (.str a) = (t, .ok (.str a)) from rfl] at h
  simp only at h
  generalize pack E (n + 1) t x = y at h
  obtain ⟨t1, r⟩ := y
  cases r with
  | error e => simp at h
  | ok w' => simp only [Prod.mk.injEq, Except.ok.injEq] at h; exact ⟨w', h.2.symm, by rw [h.1]⟩

theorem jpack_single {E : SendEnv} {n : Nat} {t t' : Refs} {a : String} {x : Val} {w : Wire} (h : jpack E (n + 2) t (.dict [(.str a, x)]) = (t', .ok w)) :
    ∃ w', w = .map [(.str a, w')] ∧ jpack E (n + 1) t x = (t', .ok w') := by
  rw [jpack] at h
  simp only [mapS, jpair, jkey_str, Val.core] at h
  generalize jpack E (n + 1) t x = y at h
  obtain ⟨t1, r⟩ := y
  cases r with
  | error e => simp at h
  | ok w' => simp only [Prod.mk.injEq, Except.ok.injEq] at h; exact ⟨w', h.2.symm, by rw [h.1]⟩

/-- Whatever reads the message of a proxy gets what it makes of the proxy, also if this is an exception. -/
theorem pack_proxy_read {L : Lib} {E : SendEnv} {R : RecvEnv} (hl : Link L E R) {n : Nat} {t t' : Refs} (ht : TableOk E t) {p : Proxy} {w : Wire}
    (h : pack E (n + 1) t (.proxy p) = (t', .ok w)) : unpack R w = received R p := by
  have hi : (Val.proxy p).isinstance E.tys = true := isinstance_default hl.types (by simp [Val.core])
  simp only [pack] at h
  simp only [encode, hi, if_true, encodeValue, Val.core] at h
  split at h
  · rename_i t1 m hm
    simp only [Prod.mk.injEq, Except.ok.injEq] at h
    obtain ⟨rfl, rfl⟩ := h
    obtain ⟨-, -, d', h3, h4⟩ := packMap_ok (R := R) (packOk hl.laws hl.sender hl.receiver hl.types hl.notOwner n) ht (by simp [keyOk, Proxy.getstate])
      (by simp [keyEq, encodeKey, Proxy.getstate]) (by simp [SendableD, Sendable, Proxy.getstate, sendableL_str]) hm
    simp only [ArrivesD, Arrives, Proxy.getstate] at h4
    obtain ⟨_, _, rfl, rfl, _, _, rfl, rfl, _, _, rfl, rfl, _, _, rfl, rfl, _, _, rfl, rfl, _, _, rfl, ⟨l', rfl, hl⟩, rfl⟩ := h4
    rw [arrivesL_str hl] at h3
    rw [h3]
    exact decodeProxy_ok R p
  · simp at h

theorem jpack_proxy_read {L : Lib} {E : SendEnv} {R : RecvEnv} (hl : Link L E R) {n : Nat} {t t' : Refs} (ht : TableOk E t) {p : Proxy} {w : Wire}
    (h : jpack E (n + 1) t (.proxy p) = (t', .ok w)) : junpack R w = received R p := by
  have hi : (Val.proxy p).isinstance E.tys = true := isinstance_default hl.types (by simp [Val.core])
  simp only [jpack] at h
  simp only [jencode, encode, hi, if_true, encodeValue, Val.core] at h
  split at h
  · rename_i t1 m hm
    simp only [Prod.mk.injEq, Except.ok.injEq] at h
    obtain ⟨rfl, rfl⟩ := h
    obtain ⟨-, -, d', h3, h4⟩ := jpackTag_ok (R := R) (jpackOk hl.laws hl.sender hl.receiver hl.types hl.notOwner n) ht (by simp [keyEq, encodeKey, Proxy.getstate])
      (by simp [Proxy.getstate]) (by simp [JSendableD, JSendable, Proxy.getstate, jsendableL_str]) hm
    simp only [JArrivesD, JArrives, Proxy.getstate, jkey_str, Except.ok.injEq] at h4
    obtain ⟨_, _, _, rfl, rfl, rfl, _, _, _, rfl, rfl, rfl, _, _, _, rfl, rfl, rfl, _, _, _, rfl, rfl, rfl, _, _, _, rfl, rfl, rfl,
      _, _, _, rfl, rfl, ⟨l', rfl, hl⟩, rfl⟩ := h4
    rw [jarrivesL_str hl] at h3
    rw [h3, jdecode_other (s := "proxy") (by simp [lookupStr]) (by simp) (by simp)]
    exact decodeProxy_ok R p
  · simp at h

/-- The options of a `get_obj` request, read where the proxy does not resolve: the exception of this. -/
theorem getobj_read_fails {L : Lib} {E : SendEnv} {R : RecvEnv} (hl : Link L E R) {h t} (hr : Reach E.idOf h t) (ha : Alive E h) {ser : Ser} {p : Proxy} {t' w} {a : String}
    (hd : ser.dumps E t (.dict [(.str a, .proxy p)]) = (t', .ok w)) {x : Exc} (hx : received R p = .error x) : ser.loads R w = .error x := by
  have ht := tableOk_of_reach hr ha
  cases ser with
  | msgpack =>
    obtain ⟨w', rfl, h1⟩ := pack_single (n := 510) hd
    have h2 := pack_proxy_read (R := R) hl (n := 510) ht h1
    show unpack R _ = _
    simp only [unpack, unpackM, keyOk, h2, hx, not_true, if_false]
  | json =>
    obtain ⟨w', rfl, h1⟩ := jpack_single (n := 998) hd
    have h2 := jpack_proxy_read (R := R) hl (n := 998) ht h1
    show junpack R _ = _
    simp only [junpack, junpackM, h2, hx]

/-! ## C117 -/

/-- **C117** In any run, an answered `get_obj` request of a proxy (`_get_value()`, `_undefer()` and reading an attribute that is not deferred) reports what the proxy stands for where the
server read the request: its object or the exception of resolving it. -/
theorem C117_resolved {K : Codec} {L : Lib} {idOf : Obj → Nat} {addr : String} {tys : List Ty} {self : Val} {sers : Bytes → Ser}
    {es1 es2 : List SEv} {n : Bytes} {E : SendEnv} {t : Refs} {rt sy : String} {p : Proxy}
    (W : World K L idOf (Srv.init addr tys self) sers (es1 ++ .ask n E t (getObjReq (.proxy p)) rt sy :: es2)) (hE : ClientProc L addr E t) (hp : p.addr = addr)
    {k : Nat} (hsent : SentAs K ((Sys.init (Srv.init addr tys self) sers).run K es1) n E t (getObjReq (.proxy p)) rt sy k)
    {f : Fut} (hf : (((Sys.init (Srv.init addr tys self) sers).run K (es1 ++ .ask n E t (getObjReq (.proxy p)) rt sy :: es2)).cli n).fut k = some f)
    (ha : f.answered) :
    ∃ pre H1 parts post P junk, (Sys.init (Srv.init addr tys self) sers).srvHist K (es1 ++ .ask n E t (getObjReq (.proxy p)) rt sy :: es2) =
        pre ++ .recv H1 (n :: parts) :: post ∧
      SEv.deliver n P junk ∈ es1 ++ .ask n E t (getObjReq (.proxy p)) rt sy :: es2 ∧
      Reports L n k H1 P.recv (sers n) ((Srv.init addr tys self).run pre).1 ((Srv.init addr tys self).run (pre ++ [.recv H1 (n :: parts)])).1.refs rt
        (((Srv.init addr tys self).run pre).1.refs.unwrap H1.view H1.ga p) f := by
  have hrec : ∀ pre H1, received (((Srv.init addr tys self).run pre).1.recvEnv H1) p = ((Srv.init addr tys self).run pre).1.refs.unwrap H1.view H1.ga p := by
    intro pre H1
    have : p.addr = ((Srv.init addr tys self).run pre).1.addr := by rw [(run_const_srv pre (Srv.init addr tys self)).2]; exact hp
    simp only [received, Srv.recvEnv, this, if_true]
  obtain ⟨h, hreach, halive⟩ := hE.refs
  obtain ⟨q, hq, hid, huniq, H, r, s1, s2, P, junk, hex, hdel, hrep⟩ := C34_result W hf ha
  obtain ⟨t', w, hdump, hask⟩ := send_future_asked hsent
  have hcs : (((Sys.init (Srv.init addr tys self) sers).run K es1).cli n).ser = sers n := by
    rw [sys_run_cli]; exact (run_const K _ _).2.1
  rw [hcs] at hask hdump
  have hmem : (⟨k, "get_obj", rt, sers n, some w⟩ : Asked) ∈
      (Sys.init (Srv.init addr tys self) sers).asked K (es1 ++ .ask n E t (getObjReq (.proxy p)) rt sy :: es2) n := by
    rw [sys_asked_append, sys_asked_cons]
    have : ((Sys.init (Srv.init addr tys self) sers).run K es1).cliEvs n (.ask n E t (getObjReq (.proxy p)) rt sy) =
        [.send E t (getObjReq (.proxy p)).1 (getObjReq (.proxy p)).2 rt sy] := by
      simp [Sys.cliEvs]
    rw [this]
    have h2 := hask
    simp only [getObjReq] at h2 ⊢
    rw [h2]; simp
  have hqe := huniq _ hmem rfl
  subst hqe
  have hread : ∀ H1, (Ev.recv H1 (n :: Asked.parts K ⟨k, "get_obj", rt, sers n, some w⟩)) ∈
      (Sys.init (Srv.init addr tys self) sers).srvHist K (es1 ++ .ask n E t (getObjReq (.proxy p)) rt sy :: es2) →
      Fits K H1 ∧ H1.lib = L := by
    intro H1 hin
    obtain ⟨se, hse, hheap⟩ := srvHist_heap hin
    exact ⟨W.fits se hse _ hheap, W.lib se hse _ hheap⟩
  have hsm : (sers n).Small w := W.small n E t "get_obj" (.dict [(.str "obj", .proxy p)]) rt sy w (by simp [getObjReq]) (by rw [hdump])
  have hpay : ∀ (s : Srv) H1, Fits K H1 → ∃ b, readOne H1 (n :: Asked.parts K ⟨k, "get_obj", rt, sers n, some w⟩) = .ok (n, ⟨k, "get_obj", rt, (sers n).name, b⟩) ∧
      Msg.payload H1 s ⟨k, "get_obj", rt, (sers n).name, b⟩ (sers n) = (sers n).loads (s.recvEnv H1) w := by
    intro s H1 hfit
    refine ⟨_, readOne_parts hfit n _, ?_⟩
    have := hfit.tree (sers n) w (dumps_writable (by rw [hdump]) hsm)
    simp [Msg.payload, this.1, this.2]
  have hlink : ∀ pre H1, H1.lib = L → Link L E (((Srv.init addr tys self).run pre).1.recvEnv H1) := by
    intro pre H1 hH
    refine ⟨W.laws, hE.lib, hH, hE.types, ?_⟩
    intro a' u hu hs
    simp only [Srv.recvEnv, Option.some.injEq, Prod.mk.injEq] at hu
    rw [(run_const_srv pre (Srv.init addr tys self)).2] at hu
    rw [← hu.1] at hs
    exact hE.server hs
  cases hex with
  | @atOnce pre post _ _ _ hhist hcomp =>
    have hin := hread H (by rw [hhist]; simp)
    refine ⟨pre, H, _, post, P, junk, hhist, hdel, ?_⟩
    obtain ⟨b, h3, h4⟩ := hpay ((Srv.init addr tys self).run pre).1 H hin.1
    have hs := completes_state hcomp
    refine reports_congr hs.2.2 hs.2.1 ?_
    suffices hh : r = ((Srv.init addr tys self).run pre).1.refs.unwrap H.view H.ga p by rw [← hh]; exact hrep
    rw [← hrec pre H]
    cases hr : received (((Srv.init addr tys self).run pre).1.recvEnv H) p with
    | ok v =>
      obtain ⟨v', g1, g2⟩ := ser_transport (hlink pre H hin.2) hreach halive (opts_sendable1 (a := "obj") (by decide) (proxy_sendable (sers n) hr)) hdump
      have hv : v' = .dict [(.str "obj", v)] := by
        have : ∃ d, v' = .dict d := by
          revert g2
          cases sers n with
          | msgpack => intro h2; simp only [Ser.Arrives, Arrives] at h2; obtain ⟨d', h, _⟩ := h2; exact ⟨d', h⟩
          | json => intro h2; simp only [Ser.Arrives, JArrives] at h2; obtain ⟨d', h, _⟩ := h2; exact ⟨d', h⟩
        obtain ⟨d, rfl⟩ := this
        obtain ⟨x', rfl, hx⟩ := opts_arrive1 g2
        have := proxy_arrives hx
        rw [hr] at this; cases this; rfl
      subst hv
      rcases hcomp with ⟨out, hout⟩ | ⟨H', parts', m, x, ser, he, hserv, hrd, hk, hrt, hser, herr, _⟩
      · have hout' := hout
        obtain ⟨a', st, b', ser, opts, g1', hserv, g2', hu, g3, g4⟩ := hout'
        have hasks : Asks H ((Srv.init addr tys self).run pre).1 (n :: Asked.parts K ⟨k, "get_obj", rt, sers n, some w⟩) n k "get_obj" rt (sers n).name (.dict [(.str "obj", v)]) :=
          ⟨hserv, hu, b, sers n, h3, serOf_name _, h4.trans g1⟩
        exact (outcome_unique hout (C71_get_obj hasks (f := v) (by simp [lookupStr]))).1
      · exfalso
        simp only [Ev.recv.injEq] at he
        obtain ⟨rfl, rfl⟩ := he
        rw [h3] at hrd
        simp only [Except.ok.injEq, Prod.mk.injEq, true_and] at hrd
        subst hrd
        simp only [serOf_name, Option.some.injEq] at hser
        subst hser
        rw [h4, g1] at herr
        simp at herr
    | error x =>
      have g1 := getobj_read_fails (hlink pre H hin.2) hreach halive hdump hr
      rcases hcomp with ⟨out, a', st, b', ser, opts, g1', hserv, g2', hu, g3, g4⟩ | ⟨H', parts', m, x', ser, he, hserv, hrd, hk, hrt, hser, herr, he2, _⟩
      · exfalso
        rw [h3] at g1'
        simp only [Except.ok.injEq, Prod.mk.injEq, Msg.mk.injEq, true_and] at g1'
        obtain ⟨rfl, rfl, rfl⟩ := g1'
        simp only [serOf_name, Option.some.injEq] at g2'
        subst g2'
        have h5 := g3.symm.trans (h4.trans g1)
        simp at h5
      · simp only [Ev.recv.injEq] at he
        obtain ⟨rfl, rfl⟩ := he
        rw [h3] at hrd
        simp only [Except.ok.injEq, Prod.mk.injEq, true_and] at hrd
        subst hrd
        simp only [serOf_name, Option.some.injEq] at hser
        subst hser
        rw [h4, g1] at herr
        cases herr
        exact he2
  | @later pre mid post H1 _ r0 task hhist hbeg hkeep hend =>
    exfalso
    obtain ⟨a', st, b, ser, opts, o, g1, g2, g3, g4, g5⟩ := hbeg
    have hin := hread H1 (by rw [hhist]; simp)
    obtain ⟨b', h3, -⟩ := hpay ((Srv.init addr tys self).run pre).1 H1 hin.1
    rw [h3] at g1
    simp only [Except.ok.injEq, Prod.mk.injEq, Msg.mk.injEq, true_and] at g1
    obtain ⟨rfl, rfl, rfl⟩ := g1
    obtain ⟨s1', r', hfin⟩ := plain_finishes (a := "get_obj") (by decide) H1 { ((Srv.init addr tys self).run pre).1 with clients := ((Srv.init addr tys self).run pre).1.clients.set n (sers n).name } n opts
    rw [hfin] at g5
    cases g5

/-- **C117, partial** (`proxy._get_value()`) In any run, if this request is answered: where the proxy did not resolve, the future tells the exception of this; else it tells the value of the
object, as the serializer carries it, or the exception of the serializer if the object is not serializable. Missing: objects outside the types to serialize should raise too; see `C117_fails`. -/
theorem C117_value_partial {K : Codec} {L : Lib} {idOf : Obj → Nat} {addr : String} {tys : List Ty} {self : Val} {sers : Bytes → Ser}
    {es1 es2 : List SEv} {n : Bytes} {E : SendEnv} {t : Refs} {p : PObj} {rt sy : String} (hrt : p.getValue.returnType = .str rt) (hsy : p.getValue.sync = .str sy)
    (W : World K L idOf (Srv.init addr tys self) sers (es1 ++ .ask n E t p.getValue.req rt sy :: es2)) (hE : ClientProc L addr E t) (hp : p.proxy.addr = addr)
    {k : Nat} (hsent : SentAs K ((Sys.init (Srv.init addr tys self) sers).run K es1) n E t p.getValue.req rt sy k)
    {f : Fut} (hf : (((Sys.init (Srv.init addr tys self) sers).run K (es1 ++ .ask n E t p.getValue.req rt sy :: es2)).cli n).fut k = some f)
    (ha : f.answered) :
    ((Sys.init (Srv.init addr tys self) sers).run K es1 |>.cli n).send K E t p.getValue.req.1 p.getValue.req.2 rt sy |>.2.2.2 = .ok (.wait k) ∧
    ∃ pre H1 parts post P junk, (Sys.init (Srv.init addr tys self) sers).srvHist K (es1 ++ .ask n E t p.getValue.req rt sy :: es2) = pre ++ .recv H1 (n :: parts) :: post ∧
      SEv.deliver n P junk ∈ es1 ++ .ask n E t p.getValue.req rt sy :: es2 ∧
      let s0 := ((Srv.init addr tys self).run pre).1
      let s2 := ((Srv.init addr tys self).run (pre ++ [.recv H1 (n :: parts)])).1
      (∀ x, s0.refs.unwrap H1.view H1.ga p.proxy = .error x → f = .remote (.str x.name) (.list ((H1.transcript n k).map .str))) ∧
      (∀ v, s0.refs.unwrap H1.view H1.ga p.proxy = .ok v →
        (∃ rv, f = .value rv ∧ ((sers n).Sendable P.recv v → (sers n).Arrives L s0.tys (ByProxy (s0.sendEnv H1) P.recv s2.refs) v rv)) ∨
        (¬ (sers n).Serializable L s0.tys v ∧ ∃ x : Exc, f = .remote (.str x.name) (.list ((H1.transcript n k).map .str)))) := by
  have h1 : rt = "value" := by simpa [PObj.getValue] using hrt.symm
  have h2 : sy = "sync" := by simpa [PObj.getValue] using hsy.symm
  subst h1; subst h2
  refine ⟨?_, ?_⟩
  · rcases hsent with h | h
    · exfalso
      simp only [Cli.send] at h
      repeat' split at h
      all_goals simp_all
    · exact h
  obtain ⟨pre, H1, parts, post, P, junk, e1, e2, e3⟩ := C117_resolved W hE hp hsent hf ha
  refine ⟨pre, H1, parts, post, P, junk, e1, e2, ?_, ?_⟩
  · intro x hx
    rw [hx] at e3
    cases e3; rfl
  · intro v hv
    rw [hv] at e3
    cases e3 with
    | value v rv g1 g2 => exact .inl ⟨rv, rfl, g2⟩
    | proxy v q g1 => exact absurd ⟨by decide, by simp⟩ g1
    | unserializable v x g1 g2 g3 => exact .inr ⟨g3, x, rfl⟩

/-- **C117 fails** in every run in which `_get_value()` of an object outside the types to serialize is answered: no exception; the result is another proxy of the object. -/
theorem C117_fails {K : Codec} {L : Lib} {idOf : Obj → Nat} {addr : String} {tys : List Ty} {self : Val} {sers : Bytes → Ser}
    {es1 es2 : List SEv} {n : Bytes} {E : SendEnv} {t : Refs} {p : PObj}
    (W : World K L idOf (Srv.init addr tys self) sers (es1 ++ .ask n E t p.getValue.req "value" "sync" :: es2)) (hE : ClientProc L addr E t) (hp : p.proxy.addr = addr)
    {k : Nat} (hsent : SentAs K ((Sys.init (Srv.init addr tys self) sers).run K es1) n E t p.getValue.req "value" "sync" k)
    {f : Fut} (hf : (((Sys.init (Srv.init addr tys self) sers).run K (es1 ++ .ask n E t p.getValue.req "value" "sync" :: es2)).cli n).fut k = some f)
    (ha : f.answered) :
    ∃ pre H1 parts post, (Sys.init (Srv.init addr tys self) sers).srvHist K (es1 ++ .ask n E t p.getValue.req "value" "sync" :: es2) = pre ++ .recv H1 (n :: parts) :: post ∧
      ∀ o ts, ((Srv.init addr tys self).run pre).1.refs.unwrap H1.view H1.ga p.proxy = .ok (.obj o ts) → (Val.obj o ts).isinstance ((Srv.init addr tys self).run pre).1.tys = false →
        ∃ q, f = .value (.proxy q) ∧ q.addr = addr ∧ q.attrs = [] ∧
          ((Srv.init addr tys self).run (pre ++ [.recv H1 (n :: parts)])).1.refs.lookup q.oid = .ok (H1.ident (.obj o ts)) := by
  obtain ⟨-, pre, H1, parts, post, P, junk, e1, e2, -, e4⟩ := C117_value_partial (rt := "value") (sy := "sync") rfl rfl W hE hp hsent hf ha
  refine ⟨pre, H1, parts, post, e1, ?_⟩
  intro o ts hv hfor
  rcases e4 _ hv with ⟨rv, rfl, g⟩ | ⟨g, -⟩
  · have h2 := g (by cases sers n <;> simp [Ser.Sendable, Sendable, JSendable])
    have h3 : ∃ q, rv = .proxy q ∧ (((Srv.init addr tys self).run pre).1.sendEnv H1).server = some q.addr ∧
        ((Srv.init addr tys self).run (pre ++ [.recv H1 (n :: parts)])).1.refs.lookup q.oid = .ok ((((Srv.init addr tys self).run pre).1.sendEnv H1).ident (.obj o ts)) ∧ q.attrs = [] ∧
        q.typeStr = (((Srv.init addr tys self).run pre).1.sendEnv H1).typeStr (.obj o ts) := by
      revert h2
      cases sers n <;> (intro h2; simp only [Ser.Arrives, Arrives, JArrives, hfor, Bool.false_eq_true, if_false, ByProxy] at h2; exact h2)
    obtain ⟨q, rfl, h4, h5, h6, -⟩ := h3
    refine ⟨q, rfl, ?_, h6, h5⟩
    simp only [Srv.sendEnv, Option.some.injEq] at h4
    rw [← h4, (run_const_srv pre (Srv.init addr tys self)).2]; rfl
  · exact absurd (by cases sers n <;> simp [Ser.Serializable, Packable, JPackable, Val.depth, Val.jdepth, hfor]) g

namespace Ex

/-- a proxy of object 0 of the server, with attributes -/
def gvProxy (oid : Nat) (attrs : List String) : PObj := ⟨⟨"tcp://a:1", oid, 0, "T", attrs⟩, defaultOptions⟩
/-- the server hands out a proxy of an object, then A asks for the value of a proxy -/
def gvRun (p : PObj) : List SEv := [.mkProxy heap2 (.obj 5 [.user 1]) []] ++ .ask nA csend Refs.init p.getValue.req "value" "sync" :: [.serve nA heap2, rd nA]
def gvFut (p : PObj) : Option Fut := ((sys.run codec2 (gvRun p)).cli nA).fut 0

/-- C117: the hypotheses can be met together. -/
example : ∃ f, gvFut (gvProxy 0 ["x", "y"]) = some f ∧ f.answered ∧ World codec2 lib heap2.idOf srv sers2 (gvRun (gvProxy 0 ["x", "y"])) ∧ ClientProc lib "tcp://a:1" csend Refs.init ∧
    SentAs codec2 (sys.run codec2 [.mkProxy heap2 (.obj 5 [.user 1]) []]) nA csend Refs.init (gvProxy 0 ["x", "y"]).getValue.req "value" "sync" 0 :=
  have ⟨f, h1, h2⟩ := isAnswered_spec (K := codec2) (es := gvRun (gvProxy 0 ["x", "y"])) (n := nA) (k := 0) (by decide +kernel)
  ⟨f, h1, h2, world2 (by simp [gvRun, SEv.heap?, rd]) (by
    simp only [gvRun, rd, List.cons_append, List.nil_append, List.mem_cons, List.not_mem_nil, reduceCtorEq, false_or, or_false, SEv.deliver.injEq]
    rintro n P j h; exact h.2.1), cproc, .inr (by decide +kernel)⟩

/-- C117: an attribute that is a number is a number; -/
example : (match gvFut (gvProxy 0 ["x", "y"]) with | some (.value (.int 42)) => true | _ => false) = true := by decide +kernel
/-- a missing attribute and an object that does not exist (any more) raise; -/
example : (match gvFut (gvProxy 0 ["z"]), gvFut (gvProxy 3 []) with | some (.remote (.str "AttributeError") _), some (.remote (.str "KeyError") _) => true | _, _ => false) = true := by decide +kernel
/-- C117 fails: the value of an object of a user's class is another proxy. -/
example : (match gvFut (gvProxy 0 []) with | some (.value (.proxy q)) => q.oid == 0 && q.rid == 1 | _ => false) = true := by decide +kernel

end Ex
end Verif
