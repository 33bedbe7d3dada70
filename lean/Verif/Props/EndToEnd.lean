import Verif.Props.SystemExample
import Verif.Props.Proxy
import Verif.Props.Serializer
import Verif.Proof.Writable
/-!
# C88: a call through a proxy, from end to end

Composition of proxy, client, sockets, server, user code and reply: what a future of a call says is what the called object did.
-/
namespace Verif

/-- what a client sends arrives, for both serializers -/
theorem ser_transport {L E R h t} (hl : Link L E R) (hr : Reach E.idOf h t) (ha : Alive E h) {ser : Ser} {v t' w}
    (hs : ser.Sendable R v) (hd : ser.dumps E t v = (t', .ok w)) :
    ∃ v', ser.loads R w = .ok v' ∧ ser.Arrives L E.tys (ByProxy E R t') v v' := by
  cases ser with
  | msgpack => exact C17_msgpack_transport hl hr ha hs hd
  | json => exact C18_json_transport hl hr ha hs hd

/-- the last thing seen of a request is that it is done -/
theorem finish_done (H : Heap) (s : Srv) (c k rt cl r) : ∃ l x, (s.finish H c k rt cl r).2 = l ++ [.done c k x] := by
  unfold Srv.finish
  generalize s.respond H c k rt r = y
  obtain ⟨s1, o, x⟩ := y
  cases x with
  | none => exact ⟨o, none, rfl⟩
  | some e => exact ⟨o, some e, rfl⟩

theorem finish_stack (H : Heap) (s : Srv) (c k rt cl r) : (s.finish H c k rt cl r).1.stack = s.stack := by
  obtain ⟨t, b1, b2, h⟩ := finish_state H s c k rt cl r
  rw [h.1]

/-- a sent request with a future is the last one asked -/
theorem send_future_asked {K : Codec} {E : SendEnv} {t : Refs} {c : Cli} {a : String} {o : Val} {rt sy : String} {k : Nat}
    (h : (c.send K E t a (some o) rt sy).2.2.2 = .ok (.future k) ∨ (c.send K E t a (some o) rt sy).2.2.2 = .ok (.wait k)) :
    ∃ t' w, c.ser.dumps E t o = (t', .ok w) ∧ c.asked K [.send E t a (some o) rt sy] = [⟨k, a, rt, c.ser, some w⟩] := by
  simp only [Cli.asked, Cli.send] at h ⊢
  by_cases hd : c.disconnected
  · simp [hd] at h
  simp only [hd, Bool.false_eq_true, if_false] at h ⊢
  by_cases hoff : sy = "off"
  · subst hoff
    simp only [if_true] at h
    generalize hx : c.ser.dumps E t o = x at h ⊢
    obtain ⟨t', r⟩ := x
    cases r with
    | error e => simp at h
    | ok w => by_cases hs : c.sockOpen = false <;> simp [hs] at h
  · simp only [hoff, if_false] at h ⊢
    generalize hx : c.ser.dumps E t o = x at h ⊢
    obtain ⟨t', r⟩ := x
    cases r with
    | error e => simp at h
    | ok w =>
      by_cases hs : c.sockOpen = false
      · simp [hs] at h
      · simp only [hs, Nat.add_sub_cancel] at h ⊢
        refine ⟨t', w, rfl, ?_⟩
        by_cases h1 : sy = "async"
        · simp [h1, hx, Except.toOption] at h ⊢; omega
        · by_cases h2 : sy = "sync"
          · simp [h2, hx, Except.toOption] at h ⊢; omega
          · simp [h1, h2] at h

/-- The options of a call through a proxy are read by the server. -/
theorem call_options {L : Lib} {E : SendEnv} {t t' : Refs} {h : RefHistory} {ser : Ser} {a rt sy : String} {o tmo : Val} {w : Wire}
    {p : PObj} (hp : Made p) {args : List Val} {kw : Dict String Val} (hself : kw.has "self" = false)
    (hcall : p.call args kw = .ok ⟨(a, some o), .str sy, .str rt, tmo⟩)
    {R : RecvEnv} (hlink : Link L E R) (hreach : Reach E.idOf h t) (halive : Alive E h)
    (hdump : ser.dumps E t o = (t', .ok w)) (hs : ser.Sendable R o) :
    ∃ d, ser.loads R w = .ok (.dict d) ∧ ser.Arrives L E.tys (ByProxy E R t') o (.dict d) := by
  obtain ⟨v', h1, h2⟩ := ser_transport hlink hreach halive hs hdump
  obtain ⟨_, _, _, _, _, _, hc⟩ := C46_call_partial hp args hself
  rw [hc] at hcall
  simp only [Except.ok.injEq, ProxyReq.mk.injEq, Prod.mk.injEq, Option.some.injEq] at hcall
  have ho := hcall.1.2
  have : ∃ d, v' = .dict d := by
    rw [← ho] at h2
    cases ser with
    | msgpack => simp only [Ser.Arrives, Arrives] at h2; obtain ⟨d', h, _⟩ := h2; exact ⟨d', h⟩
    | json => simp only [Ser.Arrives, JArrives] at h2; obtain ⟨d', h, _⟩ := h2; exact ⟨d', h⟩
  obtain ⟨d, rfl⟩ := this
  exact ⟨d, h1, h2⟩

/-- Reading the message of a call through a proxy makes the call: the proxy is resolved to an object of the server's table and its attributes, the arguments arrive as the serializer
carries them, and the frame pushed passes on whatever the called code returns or raises. -/
theorem call_made {K : Codec} {L : Lib} {E : SendEnv} {t t' : Refs} {h : RefHistory} {ser : Ser} {a rt sy : String} {o tmo : Val} {w : Wire} {n : Bytes} {k : Int}
    {p : PObj} (hp : Made p) {args : List Val} {kw : Dict String Val} (hself : kw.has "self" = false)
    (hcall : p.call args kw = .ok ⟨(a, some o), .str sy, .str rt, tmo⟩)
    {s0 : Srv} {H1 : Heap} (haddr : p.proxy.addr = s0.addr) (hlink : Link L E (s0.recvEnv H1)) (hreach : Reach E.idOf h t) (halive : Alive E h)
    (hdump : ser.dumps E t o = (t', .ok w)) (hfit : Fits K H1) (hsm : ser.Small w) (hu : H1.utf8 n ≠ none) (hserv : s0.Serving) (hs : ser.Sendable (s0.recvEnv H1) o) :
    ∃ obj fn args' kw' task, s0.refs.lookup p.proxy.oid = .ok obj ∧ AttrChain H1.ga (H1.view obj) p.proxy.attrs fn ∧
      ser.Arrives L E.tys (ByProxy E (s0.recvEnv H1) t') (.tuple args) args' ∧
      ser.Arrives L E.tys (ByProxy E (s0.recvEnv H1) t') (.dict ((remoteKw kw).map fun e => (.str e.1, e.2))) (.dict kw') ∧
      s0.step (.recv H1 (n :: Asked.parts K ⟨k, a, rt, ser, some w⟩)) =
        ({ s0 with clients := s0.clients.set n ser.name, stack := ⟨n, k, rt, task⟩ :: s0.stack },
         [.accept n k "call_obj" ser.name, .invoke fn args' (.dict kw')]) ∧ task.Transparent := by
  obtain ⟨d, h1, h2⟩ := call_options hp hself hcall hlink hreach halive hdump hs
  have hpay : ∃ b, readOne H1 (n :: Asked.parts K ⟨k, a, rt, ser, some w⟩) = .ok (n, ⟨k, a, rt, ser.name, b⟩) ∧
      Msg.payload H1 s0 ⟨k, a, rt, ser.name, b⟩ ser = ser.loads (s0.recvEnv H1) w := by
    refine ⟨_, readOne_parts hfit n _, ?_⟩
    have := hfit.tree ser w (dumps_writable (by rw [hdump]) hsm)
    simp [Msg.payload, this.1, this.2]
  obtain ⟨b, h3, h4⟩ := hpay
  have hasks : Asks H1 s0 (n :: Asked.parts K ⟨k, a, rt, ser, some w⟩) n k a rt ser.name (.dict d) :=
    ⟨hserv, hu, b, ser, h3, serOf_name _, h4.trans h1⟩
  obtain ⟨fn, args', kw', task, h5, h6, h7, h8, h9⟩ := C46_invokes_partial hp hself hcall rfl h2 hasks
  simp only [ByProxy, received, Srv.recvEnv, haddr, if_true] at h5
  have hobj : ∃ obj, s0.refs.lookup p.proxy.oid = .ok obj := by
    cases hl : s0.refs.lookup p.proxy.oid with
    | ok obj => exact ⟨obj, rfl⟩
    | error e => simp [Refs.unwrap, hl] at h5
  obtain ⟨obj, hobj⟩ := hobj
  exact ⟨obj, fn, args', kw', task, hobj, ((C21_owner_resolves p.proxy hobj).1 fn).1 h5, h6, h7, h8, h9⟩

/-- **C88** In any run of a server and any number of clients: client `n` calls a proxy with arguments `args` and keywords `kw`, and later the future of this call is answered. Then the
server has read the message of this call, and if the options are of the kinds that can be sent (C17, C18): the proxy was resolved, in the table of the server at that moment, to an object
and along its attributes to `fn`; `fn` was invoked with the arguments as the serializer carries them; this invocation ended with `r0` (its frame stayed on the stack until then); and
the future reports `r0`: the exception, the value as the serializer carries it, or a proxy to the very object. -/
theorem C88_call {K : Codec} {L : Lib} {idOf : Obj → Nat} {addr : String} {tys : List Ty} {self : Val} {sers : Bytes → Ser}
    {es1 es2 : List SEv} {n : Bytes} {E : SendEnv} {t : Refs} {h : RefHistory} {a rt sy : String} {o tmo : Val}
    (W : World K L idOf (Srv.init addr tys self) sers (es1 ++ .request n E t a (some o) rt sy :: es2))
    -- the proxy and the call
    {p : PObj} (hp : Made p) (haddr : p.proxy.addr = addr) {args : List Val} {kw : Dict String Val} (hself : kw.has "self" = false)
    (hcall : p.call args kw = .ok ⟨(a, some o), .str sy, .str rt, tmo⟩)
    -- the client's process
    (hlib : E.lib = L) (htys : ∀ ty ∈ defaultTypes, ty ∈ E.tys) (hsrv : E.server ≠ some addr) (hreach : Reach E.idOf h t) (halive : Alive E h)
    -- the call is made, and its future is answered
    {k : Nat} (hsent : (((Sys.init (Srv.init addr tys self) sers).run K es1).cli n |>.send K E t a (some o) rt sy).2.2.2 = .ok (.future k) ∨
      (((Sys.init (Srv.init addr tys self) sers).run K es1).cli n |>.send K E t a (some o) rt sy).2.2.2 = .ok (.wait k))
    {f : Fut} (hf : (((Sys.init (Srv.init addr tys self) sers).run K (es1 ++ .request n E t a (some o) rt sy :: es2)).cli n).fut k = some f)
    (ha : f.answered) :
    ∃ pre H1 parts post t', (Sys.init (Srv.init addr tys self) sers).srvHist K (es1 ++ .request n E t a (some o) rt sy :: es2) =
        pre ++ .recv H1 (n :: parts) :: post ∧
      let s0 := ((Srv.init addr tys self).run pre).1
      ((sers n).Sendable (s0.recvEnv H1) o →
        ∃ obj fn args' kw' task mid H2 r0 post2,
          -- the proxy is resolved
          s0.refs.lookup p.proxy.oid = .ok obj ∧ AttrChain H1.ga (H1.view obj) p.proxy.attrs fn ∧
          -- the arguments arrive
          (sers n).Arrives L E.tys (ByProxy E (s0.recvEnv H1) t') (.tuple args) args' ∧
          (sers n).Arrives L E.tys (ByProxy E (s0.recvEnv H1) t') (.dict ((remoteKw kw).map fun e => (.str e.1, e.2))) (.dict kw') ∧
          -- the call is made
          (s0.step (.recv H1 (n :: parts))).2 = [.accept n k "call_obj" (sers n).name, .invoke fn args' (.dict kw')] ∧
          (s0.step (.recv H1 (n :: parts))).1.stack = ⟨n, k, rt, task⟩ :: s0.stack ∧
          -- and ends
          post = mid ++ .ret H2 r0 :: post2 ∧
          (∀ x y, mid = x ++ y → ∃ l, ((Srv.init addr tys self).run (pre ++ .recv H1 (n :: parts) :: x)).1.stack = l ++ ⟨n, k, rt, task⟩ :: s0.stack) ∧
          ((Srv.init addr tys self).run (pre ++ .recv H1 (n :: parts) :: mid)).1.stack = ⟨n, k, rt, task⟩ :: s0.stack ∧
          -- with the outcome reported
          ∃ P junk, SEv.deliver n P junk ∈ es1 ++ .request n E t a (some o) rt sy :: es2 ∧
            Reports L n k H2 P.recv (sers n) { ((Srv.init addr tys self).run (pre ++ .recv H1 (n :: parts) :: mid)).1 with stack := s0.stack }
              ((Srv.init addr tys self).run (pre ++ .recv H1 (n :: parts) :: (mid ++ [.ret H2 r0]))).1.refs rt r0 f) := by
  obtain ⟨q, hq, hid, huniq, H, r, s1, s2, P, junk, hex, hdel, hrep⟩ := C34_result W hf ha
  -- the request answered is this call
  obtain ⟨t', w, hdump, hask⟩ := send_future_asked hsent
  have hcs : (((Sys.init (Srv.init addr tys self) sers).run K es1).cli n).ser = sers n := by
    rw [sys_run_cli]; exact (run_const K _ _).2.1
  rw [hcs] at hask hdump
  have hmem : (⟨k, a, rt, sers n, some w⟩ : Asked) ∈
      (Sys.init (Srv.init addr tys self) sers).asked K (es1 ++ .request n E t a (some o) rt sy :: es2) n := by
    rw [sys_asked_append, sys_asked_cons]
    have : ((Sys.init (Srv.init addr tys self) sers).run K es1).cliEvs n (.request n E t a (some o) rt sy) = [.send E t a (some o) rt sy] := by
      simp [Sys.cliEvs]
    rw [this, hask]; simp
  have hqe := huniq _ hmem rfl
  subst hqe
  -- the message, as the server reads it
  have hread : ∀ H1, (Ev.recv H1 (n :: Asked.parts K ⟨k, a, rt, sers n, some w⟩)) ∈
      (Sys.init (Srv.init addr tys self) sers).srvHist K (es1 ++ .request n E t a (some o) rt sy :: es2) →
      Fits K H1 ∧ H1.lib = L := by
    intro H1 hin
    obtain ⟨se, hse, hheap⟩ := srvHist_heap hin
    exact ⟨W.fits se hse _ hheap, W.lib se hse _ hheap⟩
  have hsm : (sers n).Small w := W.small n E t a o rt sy w (by simp) (by rw [hdump])
  have hpay : ∀ (s : Srv) H1, Fits K H1 → ∃ b, readOne H1 (n :: Asked.parts K ⟨k, a, rt, sers n, some w⟩) = .ok (n, ⟨k, a, rt, (sers n).name, b⟩) ∧
      Msg.payload H1 s ⟨k, a, rt, (sers n).name, b⟩ (sers n) = (sers n).loads (s.recvEnv H1) w := by
    intro s H1 hfit
    refine ⟨_, readOne_parts hfit n _, ?_⟩
    have := hfit.tree (sers n) w (dumps_writable (by rw [hdump]) hsm)
    simp [Msg.payload, this.1, this.2]
  have hlink : ∀ pre H1, H1.lib = L → Link L E (((Srv.init addr tys self).run pre).1.recvEnv H1) := by
    intro pre H1 hH
    refine ⟨W.laws, hlib, hH, htys, ?_⟩
    intro a' u hu hs
    simp only [Srv.recvEnv, Option.some.injEq, Prod.mk.injEq] at hu
    rw [(run_const_srv pre (Srv.init addr tys self)).2] at hu
    rw [← hu.1] at hs
    exact hsrv hs
  have hserver : ∀ pre, p.proxy.addr = ((Srv.init addr tys self).run pre).1.addr := by
    intro pre; rw [(run_const_srv pre (Srv.init addr tys self)).2]; exact haddr
  cases hex with
  | @atOnce pre post _ _ _ hhist hcomp =>
    have hin := hread H (by rw [hhist]; simp)
    refine ⟨pre, H, _, post, t', hhist, fun hs => ?_⟩
    exfalso
    rcases hcomp with ⟨out, hout⟩ | ⟨H', parts', m, x, ser, he, hserv, hrd, hk, hrt, hser, herr, _⟩
    · have hout' := hout
      obtain ⟨a', st, b, ser, opts, h1, hserv, h2, hu, _⟩ := hout'
      obtain ⟨obj, fn, args', kw', task, _, _, _, _, h3, _⟩ :=
        call_made (k := k) hp hself hcall (hserver pre) (hlink pre H hin.2) hreach halive hdump hin.1 hsm hu hserv hs
      obtain ⟨cl, pre', _, h5⟩ := step_outcome hout
      obtain ⟨l, x, h6⟩ := finish_done H s1 n k rt cl r
      simp only [Ev.heap] at h5
      rw [h3, h6, ← List.append_assoc] at h5
      have := congrArg List.getLast? h5
      simp at this
    · simp only [Ev.recv.injEq] at he
      obtain ⟨rfl, rfl⟩ := he
      obtain ⟨b, h3, h4⟩ := hpay ((Srv.init addr tys self).run pre).1 H hin.1
      rw [h3] at hrd
      simp only [Except.ok.injEq, Prod.mk.injEq, true_and] at hrd
      subst hrd
      simp only [serOf_name, Option.some.injEq] at hser
      subst hser
      obtain ⟨d, h5, _⟩ := call_options hp hself hcall (hlink pre H hin.2) hreach halive hdump hs
      rw [h4, h5] at herr
      simp at herr
  | @later pre mid post H1 _ r0 task hhist hbeg hkeep hend =>
    have hin := hread H1 (by rw [hhist]; simp)
    refine ⟨pre, H1, _, mid ++ .ret H r0 :: post, t', hhist, fun hs => ?_⟩
    have hserv : ((Srv.init addr tys self).run pre).1.Serving := by
      obtain ⟨_, _, _, _, _, _, _, h, _⟩ := hbeg; exact h
    obtain ⟨l, hl⟩ := hkeep [] mid rfl
    have hone : ((Srv.init addr tys self).run (pre ++ [.recv H1 (n :: Asked.parts K ⟨k, a, rt, sers n, some w⟩)])).1 =
        (((Srv.init addr tys self).run pre).1.step (.recv H1 (n :: Asked.parts K ⟨k, a, rt, sers n, some w⟩))).1 := by
      rw [run_append_state]; rfl
    rw [hone] at hl
    have hu : H1.utf8 n ≠ none := by
      intro hu
      obtain ⟨b, h3, _⟩ := hpay ((Srv.init addr tys self).run pre).1 H1 hin.1
      have : (((Srv.init addr tys self).run pre).1.step (.recv H1 (n :: Asked.parts K ⟨k, a, rt, sers n, some w⟩))).1.stack =
          ((Srv.init addr tys self).run pre).1.stack := by
        simp only [Srv.step, hserv.1, hserv.2.1, hserv.2.2, h3, Bool.or_self, Bool.false_eq_true, Bool.true_eq_false, if_false, Srv.process, serOf_name, hu]
        exact finish_stack ..
      rw [this] at hl
      have := congrArg List.length hl
      simp at this
      omega
    obtain ⟨obj, fn, args', kw', task', h1, h2, h3, h4, h5, h7⟩ :=
      call_made (k := k) hp hself hcall (hserver pre) (hlink pre H1 hin.2) hreach halive hdump hin.1 hsm hu hserv hs
    have htask : task' = task := by
      rw [h5] at hl
      have hlen := congrArg List.length hl
      simp only [List.length_cons, List.length_append] at hlen
      have : l = [] := List.eq_nil_of_length_eq_zero (by omega)
      subst this
      simp at hl
      exact hl
    subst htask
    refine ⟨obj, fn, args', kw', task', mid, H, r0, post, h1, h2, h3, h4, by rw [h5], by rw [h5], rfl, hkeep, hend, P, junk, hdel, ?_⟩
    rw [h7] at hrep
    exact hrep

/-- what a successful request leaves behind in the client and in the socket -/
theorem send_future_state {K : Codec} {E : SendEnv} {t : Refs} {c : Cli} {a : String} {o : Val} {rt sy : String} {k : Nat}
    (h : (c.send K E t a (some o) rt sy).2.2.2 = .ok (.future k) ∨ (c.send K E t a (some o) rt sy).2.2.2 = .ok (.wait k)) :
    ∃ t' w, c.ser.dumps E t o = (t', .ok w) ∧ (c.step K (.send E t a (some o) rt sy)).2 =
        [.transmit (Asked.parts K ⟨k, a, rt, c.ser, some w⟩), .sent (c.send K E t a (some o) rt sy).2.2.2] ∧
      (c.step K (.send E t a (some o) rt sy)).1.table.get? k = some (decide (a = "close")) ∧
      (c.step K (.send E t a (some o) rt sy)).1.sockOpen = true ∧ (c.step K (.send E t a (some o) rt sy)).1.ser = c.ser := by
  simp only [Cli.step, Cli.send] at h ⊢
  by_cases hd : c.disconnected
  · simp [hd] at h
  simp only [hd, Bool.false_eq_true, if_false] at h ⊢
  by_cases hoff : sy = "off"
  · subst hoff
    simp only [if_true] at h
    generalize hx : c.ser.dumps E t o = x at h ⊢
    obtain ⟨t', r⟩ := x
    cases r with
    | error e => simp at h
    | ok w => by_cases hs : c.sockOpen = false <;> simp [hs] at h
  · simp only [hoff, if_false] at h ⊢
    generalize hx : c.ser.dumps E t o = x at h ⊢
    obtain ⟨t', r⟩ := x
    cases r with
    | error e => simp at h
    | ok w =>
      by_cases hs : c.sockOpen = false
      · simp [hs] at h
      · simp only [hs, Nat.add_sub_cancel] at h ⊢
        simp only [Bool.not_eq_false] at hs
        refine ⟨t', w, rfl, ?_⟩
        by_cases h1 : sy = "async"
        · simp [h1] at h
          subst h
          simp [h1, Asked.parts, Dict.get?_set, hs]
        · by_cases h2 : sy = "sync"
          · simp [h2] at h
            subst h
            simp [h2, Asked.parts, Dict.get?_set, hs]
          · simp [h1, h2] at h

/-- the four steps of a call: request, reading it, the end of the call, reading the reply -/
theorem sys_four {K : Codec} {s : Sys} {n : Bytes} {E t a o rt sy H1 H2 r0 P junk} {m : List Bytes} {x : Except Exc Sent} {s2 s3 : Srv} {o2 o3 : List Out} {w : Wire}
    (hup : s.up n = []) (hdown : s.down n = [])
    (h1 : ((s.cli n).step K (.send E t a o rt sy)).2 = [.transmit m, .sent x]) (htake : s.srv.takes = true)
    (h2 : s.srv.step (.recv H1 (n :: m)) = (s2, o2)) (hn2 : sentTo n o2 = [])
    (h3 : s2.step (.ret H2 r0) = (s3, o3)) (hn3 : sentTo n o3 = [(((s.cli n).step K (.send E t a o rt sy)).1.ser, w)])
    (ho : ((s.cli n).step K (.send E t a o rt sy)).1.sockOpen = true) :
    let es := [.request n E t a o rt sy, .serve n H1, .ret H2 r0, .deliver n P junk]
    (s.run K es).srv = s3 ∧ s.outs K es = o2 ++ o3 ∧
      (s.run K es).cli n = (((s.cli n).step K (.send E t a o rt sy)).1.step K (.recv P w)).1 := by
  simp only
  -- after the request
  have e1 : (s.step K (.request n E t a o rt sy)).up n = [m] ∧ (s.step K (.request n E t a o rt sy)).srv = s.srv ∧
      (s.step K (.request n E t a o rt sy)).down n = [] ∧ (s.step K (.request n E t a o rt sy)).cli n = ((s.cli n).step K (.send E t a o rt sy)).1 := by
    simp only [Sys.step, Sys.client, upd, if_true, h1, hup]
    exact ⟨rfl, trivial, hdown, trivial⟩
  have v1 : s.srvEvs (.request n E t a o rt sy) = [] := rfl
  simp only [Sys.run, outs_cons, outs_nil]
  rw [v1]
  generalize s.step K (.request n E t a o rt sy) = sa at e1 ⊢
  obtain ⟨a1, a2, a3, a4⟩ := e1
  -- after reading it
  have v2 : sa.srvEvs (.serve n H1) = [.recv H1 (n :: m)] := by simp [Sys.srvEvs, a1]
  have e2 : (sa.step K (.serve n H1)).srv = s2 ∧ (sa.step K (.serve n H1)).down n = [] ∧ (sa.step K (.serve n H1)).cli n = sa.cli n := by
    simp only [Sys.step, a1, a2, htake, if_true, Sys.server, h2, hn2, a3, List.append_nil, and_self]
  rw [v2]
  generalize sa.step K (.serve n H1) = sb at e2 ⊢
  obtain ⟨b1, b2, b3⟩ := e2
  -- after the end of the call
  have v3 : sb.srvEvs (.ret H2 r0) = [.ret H2 r0] := rfl
  have e3 : (sb.step K (.ret H2 r0)).srv = s3 ∧ (sb.step K (.ret H2 r0)).down n = [(((s.cli n).step K (.send E t a o rt sy)).1.ser, w)] ∧
      (sb.step K (.ret H2 r0)).cli n = sb.cli n := by
    simp only [Sys.step, Sys.server, b1, h3, b2, List.nil_append, hn3, and_self]
  rw [v3]
  generalize sb.step K (.ret H2 r0) = sc at e3 ⊢
  obtain ⟨c1, c2, c3⟩ := e3
  have v4 : sc.srvEvs (.deliver n P junk) = [] := rfl
  have hc : sc.cli n = ((s.cli n).step K (.send E t a o rt sy)).1 := by rw [c3, b3, a4]
  rw [v4]
  refine ⟨?_, ?_, ?_⟩
  · simp only [Sys.step, hc, ho, if_true, c2, Sys.client]
    exact c1
  · simp only [Srv.run, a2, h2, b1, h3, List.append_nil, List.nil_append]
  · simp only [Sys.step, hc, ho, if_true, c2, Sys.client, upd]

/-- what the server does in these steps -/
theorem sys_four_hist {K : Codec} {s : Sys} {n : Bytes} {E t a o rt sy H1 H2 r0 P junk} {m : List Bytes} {x : Except Exc Sent} (hup : s.up n = [])
    (h1 : ((s.cli n).step K (.send E t a o rt sy)).2 = [.transmit m, .sent x]) :
    s.srvHist K [.request n E t a o rt sy, .serve n H1, .ret H2 r0, .deliver n P junk] = [.recv H1 (n :: m), .ret H2 r0] := by
  have e1 : (s.step K (.request n E t a o rt sy)).up n = [m] := by
    simp only [Sys.step, Sys.client, upd, if_true, h1, hup]
    rfl
  have v1 : s.srvEvs (.request n E t a o rt sy) = [] := rfl
  have v2 : (s.step K (.request n E t a o rt sy)).srvEvs (.serve n H1) = [.recv H1 (n :: m)] := by simp [Sys.srvEvs, e1]
  simp only [Sys.srvHist]
  rw [v1, v2]
  rfl

/-- **C88** (it returns) In any state of a run in which the server is healthy and nothing of client `n` is under way: `n` calls a proxy, the server reads the message, the called code
returns `v` (of a type sent by value, serializable, of the kinds that can be sent), and `n` reads the reply. Then the object the proxy stands for was called with the arguments, once, and
the future of the call holds `v`, as the serializer carries it. -/
theorem C88_returns {K : Codec} {L : Lib} {idOf : Obj → Nat} {addr : String} {tys : List Ty} {self : Val} {sers : Bytes → Ser}
    {es1 : List SEv} {n : Bytes} {E : SendEnv} {t : Refs} {h : RefHistory} {a rt sy : String} {o tmo v : Val} {H1 H2 : Heap} {P : CliEnv} {junk : Wire}
    (W : World K L idOf (Srv.init addr tys self) sers (es1 ++ [.request n E t a (some o) rt sy, .serve n H1, .ret H2 (.ok v), .deliver n P junk]))
    -- the proxy and the call
    {p : PObj} (hp : Made p) (haddr : p.proxy.addr = addr) {args : List Val} {kw : Dict String Val} (hself : kw.has "self" = false)
    (hcall : p.call args kw = .ok ⟨(a, some o), .str sy, .str rt, tmo⟩)
    -- the client's process
    (hlib : E.lib = L) (htys : ∀ ty ∈ defaultTypes, ty ∈ E.tys) (hsrv : E.server ≠ some addr) (hreach : Reach E.idOf h t) (halive : Alive E h)
    {k : Nat} (hsent : (((Sys.init (Srv.init addr tys self) sers).run K es1).cli n |>.send K E t a (some o) rt sy).2.2.2 = .ok (.future k) ∨
      (((Sys.init (Srv.init addr tys self) sers).run K es1).cli n |>.send K E t a (some o) rt sy).2.2.2 = .ok (.wait k))
    -- the state
    (hup : ((Sys.init (Srv.init addr tys self) sers).run K es1).up n = []) (hdown : ((Sys.init (Srv.init addr tys self) sers).run K es1).down n = [])
    (hh : Healthy H1.utf8 ((Sys.init (Srv.init addr tys self) sers).run K es1).srv) (hu : H1.utf8 n ≠ none) (hu2 : H2.utf8 = H1.utf8) (htb : H2.tbBad = false)
    (ho : (sers n).Sendable (((Sys.init (Srv.init addr tys self) sers).run K es1).srv.recvEnv H1) o)
    -- the result
    (hval : SentByValue (effTypes tys) rt v) (hv : (sers n).Serializable L (effTypes tys) v) (hsd : (sers n).Sendable P.recv v) :
    let s0 := ((Sys.init (Srv.init addr tys self) sers).run K es1).srv
    let es := [.request n E t a (some o) rt sy, .serve n H1, .ret H2 (.ok v), .deliver n P junk]
    let S := (Sys.init (Srv.init addr tys self) sers).run K (es1 ++ es)
    ∃ obj fn args' kw' t' wr rv,
      s0.refs.lookup p.proxy.oid = .ok obj ∧ AttrChain H1.ga (H1.view obj) p.proxy.attrs fn ∧
      (sers n).Arrives L E.tys (ByProxy E (s0.recvEnv H1) t') (.tuple args) args' ∧
      (sers n).Arrives L E.tys (ByProxy E (s0.recvEnv H1) t') (.dict ((remoteKw kw).map fun e => (.str e.1, e.2))) (.dict kw') ∧
      (Sys.init (Srv.init addr tys self) sers).outs K (es1 ++ es) = (Sys.init (Srv.init addr tys self) sers).outs K es1 ++
        [.accept n k "call_obj" (sers n).name, .invoke fn args' (.dict kw'), .send n (sers n) wr, .done n k none] ∧
      (S.cli n).fut k = some (.value rv) ∧ (sers n).Arrives L (effTypes tys) (ByProxy (s0.sendEnv H2) P.recv S.srv.refs) v rv := by
  intro s0 es S
  -- the client
  obtain ⟨t', w, hdump, hstep, htab, hopen, hser⟩ := send_future_state hsent
  have hcs : (((Sys.init (Srv.init addr tys self) sers).run K es1).cli n).ser = sers n := by
    rw [sys_run_cli]; exact (run_const K _ _).2.1
  rw [hcs] at hdump hstep hser
  -- the server
  have hs0 : s0 = ((Srv.init addr tys self).run ((Sys.init (Srv.init addr tys self) sers).srvHist K es1)).1 := sys_run_srv K es1 _
  have hconst := run_const_srv ((Sys.init (Srv.init addr tys self) sers).srvHist K es1) (Srv.init addr tys self)
  rw [← hs0] at hconst
  have hserv : s0.Serving := ⟨hh.isOpen, hh.alive, hh.sock⟩
  have hlib1 : H1.lib = L := W.lib (.serve n H1) (by simp) H1 rfl
  have hlib2 : H2.lib = L := W.lib (.ret H2 (.ok v)) (by simp) H2 rfl
  have hlink1 : Link L E (s0.recvEnv H1) := by
    refine ⟨W.laws, hlib, hlib1, htys, ?_⟩
    intro a' u hu' hs
    simp only [Srv.recvEnv, Option.some.injEq, Prod.mk.injEq] at hu'
    rw [hconst.2] at hu'
    rw [← hu'.1] at hs
    exact hsrv hs
  obtain ⟨obj, fn, args', kw', task, h1, h2, h3, h4, h5, h6⟩ :=
    call_made (K := K) (n := n) (k := k) hp hself hcall (s0 := s0) (by rw [hconst.2]; exact haddr) hlink1 hreach halive hdump (W.fits (.serve n H1) (by simp) H1 rfl) (W.small n E t a o rt sy w (by simp) (by rw [hdump])) hu hserv ho
  have hhist : (Sys.init (Srv.init addr tys self) sers).srvHist K (es1 ++ es) = (Sys.init (Srv.init addr tys self) sers).srvHist K es1 ++
      [.recv H1 (n :: Asked.parts K ⟨k, a, rt, sers n, some w⟩), .ret H2 (.ok v)] := by
    rw [srvHist_append, sys_four_hist hup hstep]
  have hl := W.live
  rw [hhist] at hl
  obtain ⟨l1, l2, l3, l4, l5, -⟩ := liveRun_append _ _ _ hl
  obtain ⟨h', hr⟩ := run_reach _ _ [] .init l1
  rw [← hs0, h5] at l5
  rw [← hs0] at hr
  simp only [Ev.heap] at l4 l5 hr
  have hs2 : (({ s0 with clients := s0.clients.set n (sers n).name, stack := ⟨n, k, rt, task⟩ :: s0.stack } : Srv).clients.get? n).bind serOf = some (sers n) := by
    simp [serOf_name]
  have hconn : Connected H2 P.recv { s0 with clients := s0.clients.set n (sers n).name, stack := ⟨n, k, rt, task⟩ :: s0.stack } := by
    refine ⟨⟨hh.types, hh.alive, hh.isOpen, hh.sock, ?_, ?_⟩, ?_, ⟨_, by rw [l4]; exact hr⟩, l5, htb⟩
    · intro c st hst
      simp only [Dict.get?_set] at hst
      split at hst
      · simp only [Option.some.injEq] at hst; subst hst; rw [serOf_name]; simp
      · exact hh.sers c st hst
    · intro f hf
      rw [hu2]
      rcases List.mem_cons.1 hf with rfl | hf
      · exact ⟨hu, by rw [hs2]; simp⟩
      · exact canAnswer_set (by rw [serOf_name]; simp) (hh.frames f hf)
    · have hrd := W.read n P junk (by simp)
      refine ⟨by rw [hlib2]; exact W.laws, rfl, by rw [hlib2]; exact hrd.1, hh.types, ?_⟩
      intro a' u hu' hs
      simp only [Srv.sendEnv, Option.some.injEq] at hs
      rw [hconst.2] at hs
      exact hrd.2 a' u hu' hs.symm
  generalize hs2e : ({ s0 with clients := s0.clients.set n (sers n).name, stack := ⟨n, k, rt, task⟩ :: s0.stack } : Srv) = s2 at hconn hs2 h5
  have hst2 : s2.stack = ⟨n, k, rt, task⟩ :: s0.stack := by rw [← hs2e]
  have hty2 : s2.tys = effTypes tys := by rw [← hs2e]; exact hconst.1
  have hout := C71_call_ends hst2 h6 H2 (.ok v)
  -- the reply
  obtain ⟨rv, ⟨ser, wr, d, g1, g2, g3, g4, g5, g6⟩, hrv⟩ := C11_result_reported (R := P.recv) (e := .ret H2 (.ok v)) hconn hout (by omega) hval.1
    (by rw [hty2]; exact hval.2) (ser := sers n) hs2 (by rw [hty2, show (Ev.ret H2 (.ok v)).heap = H2 from rfl, hlib2]; exact hv) hsd
  have hret : s2.step (.ret H2 (.ok v)) = ({ s2 with stack := s0.stack } : Srv).finish H2 n k rt false (.ok v) := by
    simp only [Srv.step, hst2]
    rw [h6 H2 (.ok v)]
  have hfo := finish_outs (H := H2) (s := { s2 with stack := s0.stack }) n k rt false (.ok v) (by rw [hlib2]; exact W.laws) (by show _ ∈ s2.tys; rw [← hs2e]; exact hh.types _ (by decide))
  rw [← hret] at hfo
  have hout3 : (s2.step (.ret H2 (.ok v))).2 = [.send n (sers n) wr, .done n k none] ∧ ser = sers n := by
    rcases hfo with ⟨e, he⟩ | ⟨-, ser', w', he, -, hs', -⟩ | ⟨hneg, -⟩
    · rw [he] at g1; simp at g1
    · rw [he] at g1 ⊢
      simp only [List.mem_cons, Out.send.injEq, true_and, List.mem_nil_iff, or_false, reduceCtorEq] at g1
      obtain ⟨rfl, rfl⟩ := g1
      have : ser = sers n := by
        have := hs'.symm.trans hs2
        simpa using this
      subst this
      exact ⟨rfl, rfl⟩
    · omega
  obtain ⟨hout3, rfl⟩ := hout3
  have htake : s0.takes = true := by
    unfold Srv.takes
    rw [hserv.1, hserv.2.1, hserv.2.2]; rfl
  obtain ⟨f1, f2, f3⟩ := sys_four (K := K) (P := P) (junk := junk) (s2 := s2) hup hdown hstep htake h5 (by simp [sentTo]) (s3 := (s2.step (.ret H2 (.ok v))).1) (o3 := [.send n (sers n) wr, .done n k none])
    (by rw [← hout3]) (w := wr) (by rw [hser]; simp [sentTo]) hopen
  refine ⟨obj, fn, args', kw', t', wr, rv, h1, h2, h3, h4, ?_, ?_, ?_⟩
  · rw [outs_append, f2]; rfl
  · show (((Sys.init (Srv.init addr tys self) sers).run K (es1 ++ es)).cli n).fut k = _
    rw [sys_run_append, f3]
    refine C27_reply_sets_inv (c := _) (d := d) ?_ hopen ?_ ⟨g3, _, g4, rfl⟩ ⟨g6, g5⟩ htab
    · exact step_inv _ (by rw [sys_run_cli]; exact run_inv _ (Cli.inv_init _ _))
    · show Ser.loads _ _ _ = _
      rw [hser]; exact g2
  · have : S.srv = (s2.step (.ret H2 (.ok v))).1 := by
      show ((Sys.init (Srv.init addr tys self) sers).run K (es1 ++ es)).srv = _
      rw [sys_run_append, f1]
    rw [this]
    rw [hty2] at hrv
    have hse : s2.sendEnv H2 = s0.sendEnv H2 := by rw [← hs2e]; rfl
    simp only [Ev.heap] at hrv
    rw [hse, hlib2] at hrv
    exact hrv

namespace Ex

/-- A proxy for the attribute `x` of object 5 of server A, made by that server. -/
def prox5 : PObj := ⟨⟨"tcp://a:1", 0, 0, "type", ["x"]⟩, defaultOptions⟩
theorem prox5_made : Made prox5 := .new (x := ⟨"tcp://a:1", 0, 0, "type", ["x"]⟩) (kw := []) rfl

/-- `p.x(3, y=4)` -/
def opts5 : Val := .dict [(.str "obj", .proxy prox5.proxy), (.str "args", .tuple [.int 3]), (.str "kwargs", .dict [(.str "y", .int 4)])]
theorem call5 : prox5.call [.int 3] [("y", .int 4)] = .ok ⟨("call_obj", some opts5), .str "sync", .str "auto", .int 10⟩ := rfl

/-- what happens before, and the call -/
def before5 : List SEv := [.mkProxy heap2 (.obj 5 [.user 1]) [], req nB (setItemReq (.str "x") (.list [.int 7])) "auto" "off"]
def call5evs : List SEv := [.request nA csend Refs.init "call_obj" (some opts5) "auto" "sync", .serve nA heap2, .ret heap2 (.ok (.list [.int 8])), .deliver nA cenv .nil]

theorem world5 : World codec2 lib heap2.idOf srv sers2 (before5 ++ call5evs) :=
  world2 (by simp [before5, call5evs, req, SEv.heap?]) (by
    simp only [before5, call5evs, req, List.cons_append, List.nil_append, List.mem_cons, List.not_mem_nil, reduceCtorEq, false_or, or_false, SEv.deliver.injEq]
    rintro n P j h; exact h.2.1)

/-- C88: the call is made. -/
theorem sent5 : ((sys.run codec2 before5).cli nA |>.send codec2 csend Refs.init "call_obj" (some opts5) "auto" "sync").2.2.2 = .ok (.wait 0) := by
  decide +kernel

theorem healthy5 : Healthy heap2.utf8 (sys.run codec2 before5).srv where
  types := fun _ h => h
  alive := by decide +kernel
  isOpen := by decide +kernel
  sock := by decide +kernel
  sers c st h := by
    have : (sys.run codec2 before5).srv.clients = [] := by decide +kernel
    rw [this] at h
    exact absurd h (by simp [Dict.get?])
  frames f h := by
    have h1 : (sys.run codec2 before5).srv.stack.length = 0 := by decide +kernel
    have := List.length_pos_of_mem h
    omega

theorem sendable5 : Sendable ((sys.run codec2 before5).srv.recvEnv heap2) opts5 := by
  have hk : KeysOk [(.str "obj", .proxy prox5.proxy), (.str "args", .tuple [.int 3]), (.str "kwargs", .dict [(.str "y", .int 4)])] := by
    refine ⟨by simp [keyOk], by decide +kernel, by decide +kernel⟩
  have hr : ∃ v, received ((sys.run codec2 before5).srv.recvEnv heap2) prox5.proxy = .ok v := by
    have h : (received ((sys.run codec2 before5).srv.recvEnv heap2) prox5.proxy).toOption.isSome = true := by decide +kernel
    cases hx : received ((sys.run codec2 before5).srv.recvEnv heap2) prox5.proxy with
    | ok v => exact ⟨v, rfl⟩
    | error e => rw [hx] at h; cases h
  simp only [opts5, Sendable, SendableD, SendableL, and_true, true_and]
  exact ⟨hk, hr, by simp [keyOk], by decide +kernel, by decide +kernel⟩

/-- C88: all hypotheses of the theorem hold, and so the future of the call holds the list the called code returned. -/
example : ∃ rv, ((sys.run codec2 (before5 ++ call5evs)).cli nA).fut 0 = some (.value rv) ∧ Ser.Arrives (sers2 nA) lib (effTypes [])
    (ByProxy ((sys.run codec2 before5).srv.sendEnv heap2) cenv.recv (sys.run codec2 (before5 ++ call5evs)).srv.refs) (.list [.int 8]) rv := by
  obtain ⟨obj, fn, args', kw', t', wr, rv, -, -, -, -, -, h1, h2⟩ := C88_returns world5 prox5_made rfl (kw := [("y", .int 4)]) (by decide) call5 rfl (fun _ h => h) (by simp [csend])
    (h := []) .init ⟨fun _ _ _ => rfl, by simp [outstanding]⟩ (k := 0) (Or.inr sent5) (by decide +kernel) (by decide +kernel) healthy5 (by decide +kernel) rfl rfl
    sendable5 ⟨by decide, fun _ => by decide⟩ ⟨by simp [Packable, PackableL], by decide⟩ (by show Sendable _ _; simp [Sendable, SendableL])
  refine ⟨rv, ?_⟩
  unfold call5evs sys srv
  exact ⟨h1, h2⟩

/-- C88: which is what the run shows. -/
example : (match ((sys.run codec2 (before5 ++ call5evs)).cli nA).fut 0 with
    | some (.value (.list [.int 8])) => true
    | _ => false) = true ∧
    (match sys.outs codec2 (before5 ++ call5evs) with
      | [.accept _ 0 "call_obj" "msgpack", .invoke (.obj 6 _) (.tuple [.int 3]) (.dict [(.str "y", .int 4)]), .send _ _ _, .done _ 0 none] => true
      | _ => false) = true := by decide +kernel

end Ex

namespace Ex

theorem fut5 : ∃ f, (((Sys.init (Srv.init "tcp://a:1" [] self) sers2).run codec2 (before5 ++ .request nA csend Refs.init "call_obj" (some opts5) "auto" "sync" :: [.serve nA heap2, .ret heap2 (.ok (.list [.int 8])), .deliver nA cenv .nil])).cli nA).fut 0 = some f ∧ f.answered := by
  have h : (match (((Sys.init (Srv.init "tcp://a:1" [] self) sers2).run codec2 (before5 ++ .request nA csend Refs.init "call_obj" (some opts5) "auto" "sync" :: [.serve nA heap2, .ret heap2 (.ok (.list [.int 8])), .deliver nA cenv .nil])).cli nA).fut 0 with | some (.value _) => true | _ => false) = true := by decide +kernel
  split at h
  · next v hv => exact ⟨_, hv, trivial⟩
  · cases h
example : ∃ f pre H1 parts post, ((Sys.init (Srv.init "tcp://a:1" [] self) sers2).run codec2 (before5 ++ .request nA csend Refs.init "call_obj" (some opts5) "auto" "sync" ::
      [.serve nA heap2, .ret heap2 (.ok (.list [.int 8])), .deliver nA cenv .nil]) |>.cli nA).fut 0 = some f ∧
    sys.srvHist codec2 (before5 ++ call5evs) = pre ++ .recv H1 (nA :: parts) :: post := by
  obtain ⟨f, hf, ha⟩ := fut5
  have h := C88_call (f := f) world5 prox5_made rfl (kw := [("y", .int 4)]) (by decide) call5 rfl (fun _ h => h) (by simp [csend])
    (h := []) .init ⟨fun _ _ _ => rfl, by simp [outstanding]⟩ (k := 0) (Or.inr sent5)
  obtain ⟨pre, H1, parts, post, t', h, -⟩ := h (by exact hf) ha
  exact ⟨f, pre, H1, parts, post, hf, h⟩

end Ex

end Verif
