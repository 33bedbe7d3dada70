import Verif.Model.QtServer
import Verif.Props.Qt
import Verif.Props.Server
/-!
# C83, C84: the Qt server
-/
namespace Verif
open Ex (lib laws heap self)

/-! ## Specification -/

/-- What the methods of the server did. -/
def srvOuts (os : List QtOut) : List Out := os.filterMap fun | .srv o => some o | _ => none

/-- What was sent to clients, in order. -/
def netOuts (os : List QtOut) : List (Bytes × Wire) := os.filterMap fun | .net c w => some (c, w) | _ => none

/-- The messages that arrived, in order. -/
def qtArrived (es : List QtSrvEv) : List (List Bytes) := es.filterMap fun | .arrive p => some p | _ => none

/-- The requests whose processing began, in order: caller, id, action, serializer. -/
def acceptedIn (os : List Out) : List (Bytes × Int × String × String) := os.filterMap fun | .accept c k a s => some (c, k, a, s) | _ => none

/-- The same of a message. -/
def Msg.key (x : Bytes × Msg) : Bytes × Int × String × String := (x.1, x.2.reqId, x.2.action, x.2.serType)

/-- The event happens in a process with libraries `L` that reads messages like `H0`. -/
def QtSrvEv.In (L : Lib) (H0 : Heap) : QtSrvEv → Prop
  | .go H => readOne H = readOne H0
  | .deliver H => H.lib = L
  | .own e => e.heap.lib = L
  | _ => True

/-- User code is invoked or a module imported. -/
def Out.executes : Out → Prop
  | .invoke .. => True
  | .importing .. => True
  | _ => False

/-! ## Every request is answered once -/

theorem srvOuts_append (a b : List QtOut) : srvOuts (a ++ b) = srvOuts a ++ srvOuts b := List.filterMap_append
theorem netOuts_append (a b : List QtOut) : netOuts (a ++ b) = netOuts a ++ netOuts b := List.filterMap_append
theorem srvOuts_srv (os : List Out) : srvOuts (os.map .srv) = os := by
  induction os with
  | nil => rfl
  | cons o os ih => simp only [srvOuts, List.map_cons, List.filterMap_cons] at ih ⊢; rw [ih]
theorem netOuts_srv (os : List Out) : netOuts (os.map .srv) = [] := by
  induction os with
  | nil => rfl
  | cons o os ih => simp only [netOuts, List.map_cons, List.filterMap_cons] at ih ⊢; exact ih
theorem srvOuts_net (os : List RelayOut) : srvOuts (netOf os) = [] := by
  induction os with
  | nil => rfl
  | cons o os ih => cases o <;> simp only [srvOuts, netOf, List.filterMap_cons] at ih ⊢ <;> exact ih
theorem netOuts_net (os : List RelayOut) : netOuts (netOf os) = relaySent os := by
  induction os with
  | nil => rfl
  | cons o os ih => cases o <;> simp only [netOuts, netOf, relaySent, List.filterMap_cons] at ih ⊢ <;> rw [ih]

theorem qt_close_tail (H : Heap) (q : QtSrv) (c : Bytes) (m : Msg) :
    ∃ (s1 : Srv) (o : List Out) (r : Except Exc Val) (b b1 b2 : Bool),
      ((((q.closeAction c).1.finish H c m (q.closeAction c).2.2).1, (q.closeAction c).2.1 ++ ((q.closeAction c).1.finish H c m (q.closeAction c).2.2).2) : QtSrv × List Out) =
        ({ q with srv := (s1.finish H c m.reqId m.returnType false r).1, quit := b }, o ++ (s1.finish H c m.reqId m.returnType false r).2) ∧
      s1 = { q.srv with closed := b1, registered := b2 } ∧ ∀ o' ∈ o, o'.neutral := by
  unfold QtSrv.closeAction
  split
  · exact ⟨q.srv, [], _, q.quit, q.srv.closed, q.srv.registered, rfl, rfl, by simp⟩
  · simp only
    obtain ⟨b, h1, h2⟩ := closeAction_state q.srv c
    generalize Srv.closeAction q.srv c = x at h1 h2 ⊢
    obtain ⟨s1, o, r⟩ := x
    simp only at h1
    refine ⟨s1, o, r, q.quit || q.quitOnClose, true, b, rfl, h1, ?_⟩
    intro o' ho'
    obtain ⟨c', ser, rfl⟩ := h2 o' ho'
    rfl

/-- the shapes of `_process_one` of a Qt server -/
theorem qt_process_cases (H : Heap) (q : QtSrv) (c : Bytes) (m : Msg) (ha : m.action = "close") :
    ∃ (s1 : Srv) (o : List Out) (r : Except Exc Val) (b b1 b2 : Bool),
      q.process H c m = ({ q with srv := (s1.finish H c m.reqId m.returnType false r).1, quit := b }, o ++ (s1.finish H c m.reqId m.returnType false r).2) ∧
      s1 = { q.srv with clients := q.srv.clients.set c m.serType, closed := b1, registered := b2 } ∧ ∀ o' ∈ o, o'.neutral := by
  have tail := qt_close_tail H { q with srv := { q.srv with clients := q.srv.clients.set c m.serType } } c m
  unfold QtSrv.process
  simp only [ha, if_true]
  cases serOf m.serType with
  | none => exact ⟨_, [], _, q.quit, q.srv.closed, q.srv.registered, rfl, rfl, by simp⟩
  | some ser =>
    cases H.utf8 c with
    | none => exact ⟨_, [], _, q.quit, q.srv.closed, q.srv.registered, rfl, rfl, by simp⟩
    | some y =>
      simp only
      generalize (if m.opts = [] then Except.ok Val.none else _) = z
      cases z with
      | error e => exact ⟨_, [], _, q.quit, q.srv.closed, q.srv.registered, rfl, rfl, by simp⟩
      | ok v => exact tail

theorem qt_process_proto (H : Heap) (q : QtSrv) (c : Bytes) (m : Msg) (hL : H.lib.Laws) (hty : Ty.int ∈ q.srv.tys) :
    proto H.lib (⟨c, m.reqId, false⟩ :: q.srv.openReqs) (q.process H c m).2 = some (q.process H c m).1.srv.openReqs ∧ (q.process H c m).1.srv.tys = q.srv.tys := by
  by_cases ha : m.action = "close"
  · obtain ⟨s1, o, r, b, b1, b2, h, h1, h3⟩ := qt_process_cases H q c m ha
    rw [h]
    simp only
    rw [proto_append, proto_neutral o _ (fun x hx => neutral_protoStep (h3 x hx) _)]
    simp only [Option.bind_some]
    rw [finish_proto _ _ _ _ _ hL (by rw [h1]; exact hty)]
    obtain ⟨t', b, d, hf, -⟩ := finish_state H s1 c m.reqId m.returnType false r
    rw [hf, h1]
    exact ⟨rfl, rfl⟩
  · simp only [QtSrv.process, if_neg ha]
    refine ⟨process_proto c m hL hty, ?_⟩
    rcases process_cases H q.srv c m with ⟨s1, o, r, t, n, b1, b2, h, h1, _⟩ | ⟨o, task, h, _⟩
    · rw [h]
      obtain ⟨t', b, d, hf, -⟩ := finish_state H s1 c m.reqId m.returnType (decide (m.action = "close")) r
      rw [hf, h1]
    · rw [h]

theorem qt_step_proto {L : Lib} (hL : L.Laws) (H0 : Heap) (q : QtSrv) (e : QtSrvEv) (he : e.In L H0) (hty : Ty.int ∈ q.srv.tys) :
    proto L q.srv.openReqs (srvOuts (q.step e).2) = some (q.step e).1.srv.openReqs ∧ (q.step e).1.srv.tys = q.srv.tys := by
  cases e with
  | arrive p => exact ⟨rfl, rfl⟩
  | go H =>
    refine ⟨?_, rfl⟩
    show proto L q.srv.openReqs (srvOuts (netOf _)) = _
    rw [srvOuts_net]
    rfl
  | leave => exact ⟨rfl, rfl⟩
  | deliver H =>
    simp only [QtSrv.step]
    split
    · exact ⟨rfl, rfl⟩
    · unfold QtSrv.deliver
      split
      · exact ⟨rfl, rfl⟩
      · rename_i name msg r _
        simp only [QtSrv.post]
        rw [srvOuts_srv]
        rw [← he] at hL ⊢
        have := qt_process_proto H { q with relay := { q.relay with signals := r } } name msg hL hty
        refine ⟨?_, this.2⟩
        simp only [proto, protoStep]
        exact this.1
  | own e =>
    cases e with
    | recv H p => exact ⟨rfl, rfl⟩
    | ret H r =>
      simp only [QtSrv.step, QtSrv.post]
      rw [srvOuts_srv, ← he]
      rw [← he] at hL
      exact ⟨step_proto (s := q.srv) (.ret H r) hL hty, (step_const q.srv _).1⟩
    | publish H n v =>
      simp only [QtSrv.step, QtSrv.post]
      rw [srvOuts_srv, ← he]
      rw [← he] at hL
      exact ⟨step_proto (s := q.srv) (.publish H n v) hL hty, (step_const q.srv _).1⟩
    | mkProxy H v k =>
      simp only [QtSrv.step, QtSrv.post]
      rw [srvOuts_srv, ← he]
      rw [← he] at hL
      exact ⟨step_proto (s := q.srv) (.mkProxy H v k) hL hty, (step_const q.srv _).1⟩

theorem qt_run_proto {L : Lib} (hL : L.Laws) (H0 : Heap) (es : List QtSrvEv) : ∀ (q : QtSrv), (∀ e ∈ es, e.In L H0) → Ty.int ∈ q.srv.tys →
    proto L q.srv.openReqs (srvOuts (q.run es).2) = some (q.run es).1.srv.openReqs := by
  induction es with
  | nil => intro q _ _; rfl
  | cons e es ih =>
    intro q h hty
    have h1 := qt_step_proto hL H0 q e (h e (by simp)) hty
    simp only [QtSrv.run]
    rw [srvOuts_append, proto_append, h1.1]
    simp only [Option.bind_some]
    exact ih _ (fun e he => h e (by simp [he])) (by rw [h1.2]; exact hty)

/-- **C84** (one reply each) In every history of a Qt server, for every caller and request id: there are as many replies as requests whose processing ended normally (for ids ≥ 0);
none for negative ids (sync 'off'); and every request whose processing began has ended normally, has ended by an exception, or is still being processed. This holds also after the
server was closed. -/
theorem C84_one_reply {L : Lib} (hL : L.Laws) (H0 : Heap) (addr : String) (tys : List Ty) (self : Val) (quitOnClose hasApp : Bool) (hty : Ty.int ∈ effTypes tys)
    (es : List QtSrvEv) (hes : ∀ e ∈ es, e.In L H0) (c : Bytes) (k : Int) :
    let x := (QtSrv.init addr tys self quitOnClose hasApp).run es
    (0 ≤ k → countReplies L c k (srvOuts x.2) = countDone c k (srvOuts x.2)) ∧ (k < 0 → countReplies L c k (srvOuts x.2) = 0) ∧
    countAccepted c k (srvOuts x.2) = countDone c k (srvOuts x.2) + countRaised c k (srvOuts x.2) + x.1.srv.countOpen c k := by
  have h := qt_run_proto hL H0 es (QtSrv.init addr tys self quitOnClose hasApp) hes hty
  have hc := proto_counts c k h
  rw [show (QtSrv.init addr tys self quitOnClose hasApp).srv.openReqs = [] from rfl] at hc
  simp only [openCount_openReqs, repliedCount_openReqs] at hc
  simp only [openCount, repliedCount, List.countP_nil] at hc
  refine ⟨fun hk => ?_, hc.2.2, by omega⟩
  have := hc.2.1
  simp only [hk, if_true] at this
  omega

/-! ## The server uses the relay of C65 -/

theorem relay_go_congr {H H' : Heap} (h : readOne H = readOne H') (s : RelaySt) : s.go H = s.go H' := by
  unfold RelaySt.go
  rw [h]

theorem relay_results_run (H : Heap) (l : List (Bytes × Wire)) : ∀ s : RelaySt, s.run H (l.map fun x => .result x.1 x.2) = ({ s with ret := s.ret ++ l }, []) := by
  induction l with
  | nil => intro s; simp [RelaySt.run]
  | cons x l ih =>
    intro s
    simp only [List.map_cons, RelaySt.run, RelaySt.step]
    rw [ih]
    simp

theorem arrivedIn_results (l : List (Bytes × Wire)) : arrivedIn (l.map fun x => .result x.1 x.2) = [] := by
  induction l with
  | nil => rfl
  | cons x l ih => simp only [arrivedIn, List.map_cons, List.filterMap_cons] at ih ⊢; exact ih

theorem producedIn_results (l : List (Bytes × Wire)) : producedIn (l.map fun x => .result x.1 x.2) = l := by
  induction l with
  | nil => rfl
  | cons x l ih => simp only [producedIn, List.map_cons, List.filterMap_cons] at ih ⊢; rw [ih]

theorem arrivedIn_append (a b : List RelayEv) : arrivedIn (a ++ b) = arrivedIn a ++ arrivedIn b := List.filterMap_append
theorem producedIn_append (a b : List RelayEv) : producedIn (a ++ b) = producedIn a ++ producedIn b := List.filterMap_append
theorem relaySent_append (a b : List RelayOut) : relaySent (a ++ b) = relaySent a ++ relaySent b := List.filterMap_append
theorem relayProcessed_append (a b : List RelayOut) : relayProcessed (a ++ b) = relayProcessed a ++ relayProcessed b := List.filterMap_append
theorem acceptedIn_append (a b : List Out) : acceptedIn (a ++ b) = acceptedIn a ++ acceptedIn b := List.filterMap_append
theorem sendsOf_append (a b : List Out) : sendsOf (a ++ b) = sendsOf a ++ sendsOf b := List.filterMap_append

/-- nothing is accepted in these observations -/
theorem acceptedIn_nil {os : List Out} (h : ∀ o ∈ os, ∀ c k a s, o ≠ .accept c k a s) : acceptedIn os = [] := by
  induction os with
  | nil => rfl
  | cons o os ih =>
    have := h o (by simp)
    cases o with
    | accept c k a s => exact absurd rfl (this c k a s)
    | _ => exact ih (fun o ho => h o (by simp [ho]))

/-- The relay of a Qt server makes the steps of a relay history with these arrivals and results, which delivers what the server accepts and sends what the clients get. -/
structure QtSimulates (H0 : Heap) (q q' : QtSrv) (arr : List (List Bytes)) (os : List QtOut) (rs : List RelayEv) : Prop where
  relay : q'.relay = (q.relay.run H0 rs).1
  sent : netOuts os = relaySent (q.relay.run H0 rs).2
  accepted : acceptedIn (srvOuts os) = (relayProcessed (q.relay.run H0 rs).2).map Msg.key
  arrived : arrivedIn rs = arr
  produced : producedIn rs = sendsOf (srvOuts os)

theorem process_relay (H : Heap) (q : QtSrv) (c : Bytes) (m : Msg) : (q.process H c m).1.relay = q.relay := by
  by_cases ha : m.action = "close"
  · obtain ⟨s1, o, r, b, b1, b2, h, -⟩ := qt_process_cases H q c m ha
    rw [h]
  · simp only [QtSrv.process, if_neg ha]


theorem finish_no_accept {H : Heap} {s : Srv} (c k rt cl r) (hL : H.lib.Laws) (hty : Ty.int ∈ s.tys) : acceptedIn (s.finish H c k rt cl r).2 = [] := by
  rcases finish_outs (H := H) (s := s) c k rt cl r hL hty with ⟨e, h⟩ | ⟨hk, ser, w, h, -⟩ | ⟨hk, h | ⟨e, h⟩⟩ <;> rw [h] <;> rfl

theorem neutral_no_accept {os : List Out} (h : ∀ o ∈ os, o.neutral) : acceptedIn os = [] := by
  refine acceptedIn_nil fun o ho c k a s he => ?_
  have := h o ho
  rw [he] at this
  exact this

theorem qt_process_no_accept (H : Heap) (q : QtSrv) (c : Bytes) (m : Msg) (hL : H.lib.Laws) (hty : Ty.int ∈ q.srv.tys) : acceptedIn (q.process H c m).2 = [] := by
  by_cases ha : m.action = "close"
  · obtain ⟨s1, o, r, b, b1, b2, h, h1, h3⟩ := qt_process_cases H q c m ha
    rw [h, acceptedIn_append, neutral_no_accept h3, finish_no_accept _ _ _ _ _ hL (by rw [h1]; exact hty)]
    rfl
  · simp only [QtSrv.process, if_neg ha]
    rcases process_cases H q.srv c m with ⟨s1, o, r, t, n, b1, b2, h, h1, _, h3⟩ | ⟨o, task, h, h3, _⟩
    · rw [h, acceptedIn_append, neutral_no_accept h3, finish_no_accept _ _ _ _ _ hL (by rw [h1]; exact hty)]
      rfl
    · rw [h]
      exact neutral_no_accept h3

theorem own_no_accept (s : Srv) (e : Ev) (he : ∀ H p, e ≠ .recv H p) (hL : e.heap.lib.Laws) (hty : Ty.int ∈ s.tys) : acceptedIn (s.step e).2 = [] := by
  cases e with
  | recv H p => exact absurd rfl (he H p)
  | ret H r =>
    simp only [Srv.step]
    split
    · rfl
    · exact finish_no_accept _ _ _ _ _ hL hty
  | publish H n v =>
    simp only [Srv.step]
    split <;> rfl
  | mkProxy H v k => rfl

/-- what the Qt thread posts goes to the relay as results -/
theorem post_simulates (H0 : Heap) (q : QtSrv) (x : QtSrv × List Out) (hr : x.1.relay = q.relay) (ha : acceptedIn x.2 = []) :
    QtSimulates H0 q (QtSrv.post x).1 [] (QtSrv.post x).2 ((sendsOf x.2).map fun y => .result y.1 y.2) := by
  refine ⟨?_, ?_, ?_, arrivedIn_results _, ?_⟩
  · rw [relay_results_run]
    simp only [QtSrv.post, hr]
  · rw [relay_results_run]
    exact netOuts_srv _
  · rw [relay_results_run]
    simp only [QtSrv.post]
    rw [srvOuts_srv, ha]
    rfl
  · rw [producedIn_results]
    simp only [QtSrv.post]
    rw [srvOuts_srv]

theorem qt_step_simulates {L : Lib} (hL : L.Laws) (H0 : Heap) (q : QtSrv) (e : QtSrvEv) (he : e.In L H0) (hty : Ty.int ∈ q.srv.tys) :
    ∃ rs, QtSimulates H0 q (q.step e).1 (qtArrived [e]) (q.step e).2 rs := by
  cases e with
  | arrive p => exact ⟨[.arrive p], rfl, rfl, rfl, rfl, rfl⟩
  | leave => exact ⟨[], rfl, rfl, rfl, rfl, rfl⟩
  | go H =>
    refine ⟨[.go], ?_⟩
    have hg := relay_go_congr he q.relay
    have hq : q.step (.go H) = ({ q with relay := (q.relay.go H0).1 }, netOf (q.relay.go H0).2) := by
      simp only [QtSrv.step, hg]
    rw [hq]
    have h2 : (q.relay.run H0 [.go]).2 = (q.relay.go H0).2 := by simp [RelaySt.run, RelaySt.step]
    have hno : relayProcessed (q.relay.go H0).2 = [] := by
      obtain ⟨rpc, ret, sig, pc⟩ := q.relay
      simp only [RelaySt.go]
      cases pc with
      | poll => rfl
      | polled a b =>
        cases a with
        | false => rfl
        | true => cases ret <;> rfl
      | second b =>
        cases b with
        | false => rfl
        | true =>
          cases rpc with
          | nil => rfl
          | cons p r => cases h : readOne H0 p <;> simp [h, relayProcessed]
      | stopped => rfl
      | dead e => rfl
    refine ⟨rfl, ?_, ?_, rfl, ?_⟩
    · rw [netOuts_net, h2]
    · rw [srvOuts_net, h2, hno]
      rfl
    · rw [srvOuts_net]
      rfl
  | own e =>
    cases e with
    | recv H p => exact ⟨[], rfl, rfl, rfl, rfl, rfl⟩
    | ret H r =>
      exact ⟨_, post_simulates H0 q ({ q with srv := (q.srv.step (.ret H r)).1 }, (q.srv.step (.ret H r)).2) rfl
        (own_no_accept q.srv (.ret H r) (by simp) (by rw [show (Ev.ret H r).heap.lib = L from he]; exact hL) hty)⟩
    | publish H n v =>
      exact ⟨_, post_simulates H0 q ({ q with srv := (q.srv.step (.publish H n v)).1 }, (q.srv.step (.publish H n v)).2) rfl
        (own_no_accept q.srv (.publish H n v) (by simp) (by rw [show (Ev.publish H n v).heap.lib = L from he]; exact hL) hty)⟩
    | mkProxy H v k =>
      exact ⟨_, post_simulates H0 q ({ q with srv := (q.srv.step (.mkProxy H v k)).1 }, (q.srv.step (.mkProxy H v k)).2) rfl
        (own_no_accept q.srv (.mkProxy H v k) (by simp) (by rw [show (Ev.mkProxy H v k).heap.lib = L from he]; exact hL) hty)⟩
  | deliver H =>
    simp only [QtSrv.step]
    split
    · exact ⟨[], rfl, rfl, rfl, rfl, rfl⟩
    · unfold QtSrv.deliver
      split
      · exact ⟨[], rfl, rfl, rfl, rfl, rfl⟩
      · rename_i name msg r hs
        have hL' : H.lib.Laws := by rw [show H.lib = L from he]; exact hL
        have hn := qt_process_no_accept H { q with relay := { q.relay with signals := r } } name msg hL' hty
        have hr := process_relay H { q with relay := { q.relay with signals := r } } name msg
        generalize QtSrv.process H { q with relay := { q.relay with signals := r } } name msg = x at hn hr ⊢
        obtain ⟨q', o⟩ := x
        simp only at hr hn ⊢
        have hp := post_simulates H0 { q with relay := { q.relay with signals := r } } (q', o) hr hn
        have h0 : q.relay.run H0 (.deliver :: (sendsOf o).map fun y => .result y.1 y.2) =
            ((RelaySt.run H0 { q.relay with signals := r } ((sendsOf o).map fun y => .result y.1 y.2)).1,
              .process name msg :: (RelaySt.run H0 { q.relay with signals := r } ((sendsOf o).map fun y => .result y.1 y.2)).2) := by
          simp only [RelaySt.run, RelaySt.step, hs]
          rfl
        refine ⟨.deliver :: (sendsOf o).map fun y => .result y.1 y.2, ?_, ?_, ?_, ?_, ?_⟩
        · rw [h0]; exact hp.relay
        · rw [h0]; exact hp.sent
        · rw [h0]
          have := hp.accepted
          simp only [QtSrv.post, srvOuts_srv] at this ⊢
          show Msg.key (name, msg) :: acceptedIn o = Msg.key (name, msg) :: (relayProcessed _).map Msg.key
          rw [this]
        · exact hp.arrived
        · exact hp.produced

theorem qt_run_simulates {L : Lib} (hL : L.Laws) (H0 : Heap) (es : List QtSrvEv) : ∀ q : QtSrv, (∀ e ∈ es, e.In L H0) → Ty.int ∈ q.srv.tys →
    ∃ rs, QtSimulates H0 q (q.run es).1 (qtArrived es) (q.run es).2 rs := by
  induction es with
  | nil => intro q _ _; exact ⟨[], rfl, rfl, rfl, rfl, rfl⟩
  | cons e es ih =>
    intro q h hty
    obtain ⟨r1, h1⟩ := qt_step_simulates hL H0 q e (h e (by simp)) hty
    obtain ⟨r2, h2⟩ := ih (q.step e).1 (fun e he => h e (by simp [he])) (by rw [(qt_step_proto hL H0 q e (h e (by simp)) hty).2]; exact hty)
    refine ⟨r1 ++ r2, ?_⟩
    have hr := relay_run_append H0 r1 r2 q.relay
    simp only [QtSrv.run]
    refine ⟨?_, ?_, ?_, ?_, ?_⟩
    · rw [hr, ← h1.relay]; exact h2.relay
    · rw [hr, netOuts_append, relaySent_append, h1.sent, h2.sent, ← h1.relay]
    · rw [hr, srvOuts_append, acceptedIn_append, relayProcessed_append, h1.accepted, h2.accepted, ← h1.relay, List.map_append]
    · rw [arrivedIn_append, h1.arrived, h2.arrived]
      simp only [qtArrived]
      rw [← List.filterMap_append]
      rfl
    · rw [producedIn_append, srvOuts_append, sendsOf_append, h1.produced, h2.produced]

/-- What the methods of the server send: addressee and message, whatever the serializer. -/
def methodSends : List Out → List (Bytes × Wire)
  | [] => []
  | .send c _ w :: os => (c, w) :: methodSends os
  | _ :: os => methodSends os

theorem sendsOf_methodSends : ∀ os, sendsOf os = methodSends os
  | [] => rfl
  | o :: os => by
    have ih := sendsOf_methodSends os
    unfold sendsOf at ih ⊢
    cases o <;> simp only [List.filterMap_cons, methodSends, ih]

/-- **C84** (what leaves) In every history: what the poll thread sent to clients, followed by what waits in the relay, is what the methods of the server sent, in order: nothing lost,
doubled, changed or invented. -/
theorem C84_sent {L : Lib} (hL : L.Laws) (H0 : Heap) (addr : String) (tys : List Ty) (self : Val) (quitOnClose hasApp : Bool) (hty : Ty.int ∈ effTypes tys)
    (es : List QtSrvEv) (hes : ∀ e ∈ es, e.In L H0) :
    let x := (QtSrv.init addr tys self quitOnClose hasApp).run es
    netOuts x.2 ++ x.1.relay.ret = methodSends (srvOuts x.2) := by
  obtain ⟨rs, h⟩ := qt_run_simulates hL H0 es (QtSrv.init addr tys self quitOnClose hasApp) hes hty
  simp only
  rw [h.sent, h.relay, C65_results, h.produced, sendsOf_methodSends]
  rfl

/-- **C84** (what is executed) In every history: the requests whose processing began, followed by those on their way to the Qt thread, are the first messages that arrived, decoded, in
order, each once; the rest waits in the socket, unless a message that cannot be read has ended the poll thread. -/
theorem C84_accepted {L : Lib} (hL : L.Laws) (H0 : Heap) (addr : String) (tys : List Ty) (self : Val) (quitOnClose hasApp : Bool) (hty : Ty.int ∈ effTypes tys)
    (es : List QtSrvEv) (hes : ∀ e ∈ es, e.In L H0) :
    let x := (QtSrv.init addr tys self quitOnClose hasApp).run es
    ∃ (took : List (List Bytes)) (l : List (Bytes × Msg)) (rest : List (List Bytes)), qtArrived es = took ++ rest ∧ took.map (readOne H0) = l.map .ok ∧
      acceptedIn (srvOuts x.2) ++ x.1.relay.signals.map Msg.key = l.map Msg.key ∧
      (rest = x.1.relay.rpc ∨ ∃ bad, ¬ Readable H0 bad ∧ rest = bad :: x.1.relay.rpc) := by
  obtain ⟨rs, h⟩ := qt_run_simulates hL H0 es (QtSrv.init addr tys self quitOnClose hasApp) hes hty
  obtain ⟨took, l, rest, h1, h2, h3, h4⟩ := C65_requests H0 rs
  refine ⟨took, l, rest, by rw [← h.arrived]; exact h1, h2, ?_, ?_⟩
  · rw [h.accepted, h.relay, ← List.map_append]
    exact congrArg _ h3
  · rw [h.relay]
    exact h4

/-! ## C83 -/

/-- A Qt server A, its poll thread reading one message and the event loop delivering it. -/
def Ex.qt (quitOnClose : Bool) : QtSrv := QtSrv.init "tcp://a:1" [] self quitOnClose true
def Ex.qtRead : List QtSrvEv := [.go heap, .go heap, .go heap]
def Ex.qtSend : List QtSrvEv := [.go heap, .go heap, .go heap]

/-- Client B closes the server (which keeps the event loop, as a server in a thread of a GUI does), then A calls a function, which returns 7, then B closes again. -/
def Ex.qtAfterClose : List QtSrvEv :=
  [.arrive [[66], [1], [12], [20], [30], []]] ++ Ex.qtRead ++ [.deliver heap] ++ Ex.qtSend ++
  [.arrive [[65], [2], [13], [20], [30], [3]]] ++ Ex.qtRead ++ [.deliver heap, .own (.ret heap (.ok (.int 7)))] ++ Ex.qtSend

/-- The calls of user code. -/
def invokesIn (os : List Out) : Nat := os.countP fun | .invoke .. => true | _ => false

/-- **C83 fails**: a closed Qt server still executes requests: the call of A, which arrived after the server was closed, is executed and answered. -/
theorem C83_fails :
    ((Ex.qt false).run (Ex.qtAfterClose.take 5)).1.srv.closed = true ∧ qtArrived (Ex.qtAfterClose.take 5) = [[[66], [1], [12], [20], [30], []]] ∧
    invokesIn (srvOuts ((Ex.qt false).run (Ex.qtAfterClose.take 5)).2) = 0 ∧ invokesIn (srvOuts ((Ex.qt false).run Ex.qtAfterClose).2) = 1 ∧
    acceptedIn (srvOuts ((Ex.qt false).run Ex.qtAfterClose).2) = [([66], 1, "close", "msgpack"), ([65], 2, "call_obj", "msgpack")] ∧
    countReplies lib [65] 2 (srvOuts ((Ex.qt false).run Ex.qtAfterClose).2) = 1 := by decide +kernel

/-- With `quit_on_close` (the default) it is the same for requests that were on their way to the Qt thread: the event loop delivers them before it ends. -/
def Ex.qtQueued : List QtSrvEv :=
  [.arrive [[66], [1], [12], [20], [30], []], .arrive [[65], [2], [13], [20], [30], [3]]] ++ Ex.qtRead ++ Ex.qtRead ++ [.deliver heap, .deliver heap]

theorem C83_fails_quit : ((Ex.qt true).run (Ex.qtQueued.take 9)).1.srv.closed = true ∧ ((Ex.qt true).run (Ex.qtQueued.take 9)).1.quit = true ∧
    invokesIn (srvOuts ((Ex.qt true).run (Ex.qtQueued.take 9)).2) = 0 ∧ invokesIn (srvOuts ((Ex.qt true).run Ex.qtQueued).2) = 1 := by decide +kernel

theorem finish_no_exec {H : Heap} {s : Srv} (c k rt cl r) (hL : H.lib.Laws) (hty : Ty.int ∈ s.tys) : ∀ o ∈ (s.finish H c k rt cl r).2, ¬ o.executes := by
  rcases finish_outs (H := H) (s := s) c k rt cl r hL hty with ⟨e, h⟩ | ⟨hk, ser, w, h, -⟩ | ⟨hk, h | ⟨e, h⟩⟩ <;> rw [h] <;> simp [Out.executes]

/-- **C83** (partial) Once the event loop has ended, nothing is executed any more, whatever arrives and whatever the poll thread does, and no request is begun.
Missing: between the close and the end of the event loop (which need not end at all) requests are executed, see `C83_fails`. -/
theorem C83_left_partial {L : Lib} (hL : L.Laws) (H0 : Heap) (es : List QtSrvEv) : ∀ q : QtSrv, q.left = true → Ty.int ∈ q.srv.tys → (∀ e ∈ es, e.In L H0) →
    (∀ o ∈ srvOuts (q.run es).2, ¬ o.executes) ∧ acceptedIn (srvOuts (q.run es).2) = [] := by
  induction es with
  | nil => intro q _ _ _; exact ⟨by simp [QtSrv.run, srvOuts], rfl⟩
  | cons e es ih =>
    intro q hl hty he
    have h0 := he e (by simp)
    have ht := (qt_step_proto hL H0 q e h0 hty).2
    have hs : (q.step e).1.left = true ∧ (∀ o ∈ srvOuts (q.step e).2, ¬ o.executes) ∧ acceptedIn (srvOuts (q.step e).2) = [] := by
      cases e with
      | arrive p => exact ⟨hl, by simp [QtSrv.step, srvOuts], rfl⟩
      | leave => exact ⟨by simp [QtSrv.step, hl], by simp [QtSrv.step, srvOuts], rfl⟩
      | go H =>
        have : srvOuts (q.step (.go H)).2 = [] := srvOuts_net _
        rw [this]
        exact ⟨hl, by simp, rfl⟩
      | deliver H =>
        have : q.step (.deliver H) = (q, []) := by simp only [QtSrv.step, hl, if_true]
        rw [this]
        exact ⟨hl, by simp [srvOuts], rfl⟩
      | own e =>
        cases e with
        | recv H p => exact ⟨hl, by simp [QtSrv.step, srvOuts], rfl⟩
        | ret H r =>
          have hL' : H.lib.Laws := by rw [show H.lib = L from h0]; exact hL
          have ha := own_no_accept q.srv (.ret H r) (by simp) hL' hty
          simp only [QtSrv.step, QtSrv.post]
          rw [srvOuts_srv]
          refine ⟨hl, ?_, ha⟩
          simp only [Srv.step]
          split
          · simp
          · exact finish_no_exec _ _ _ _ _ hL' hty
        | publish H n v =>
          have hL' : H.lib.Laws := by rw [show H.lib = L from h0]; exact hL
          have ha := own_no_accept q.srv (.publish H n v) (by simp) hL' hty
          simp only [QtSrv.step, QtSrv.post]
          rw [srvOuts_srv]
          refine ⟨hl, ?_, ha⟩
          simp only [Srv.step]
          split <;> simp
        | mkProxy H v k => exact ⟨hl, by simp [QtSrv.step, QtSrv.post, Srv.step, srvOuts], rfl⟩
    obtain ⟨i1, i2⟩ := ih (q.step e).1 hs.1 (by rw [ht]; exact hty) (fun e h => he e (by simp [h]))
    simp only [QtSrv.run]
    rw [srvOuts_append, acceptedIn_append, hs.2.2, i2]
    refine ⟨fun o ho => ?_, rfl⟩
    rcases List.mem_append.mp ho with ho | ho
    · exact hs.2.1 o ho
    · exact i1 o ho

/-- **C83** (partial) With `quit_on_close` and a QApplication, every `close` request that is reached tells the event loop to end; it does as soon as no user code is running. -/
theorem C83_quits_partial (q : QtSrv) (c : Bytes) (h : q.quitOnClose = true) (ha : q.hasApp = true) :
    (q.closeAction c).1.quit = true ∧ ∀ q' : QtSrv, q'.quit = true → q'.srv.stack = [] → (q'.step .leave).1.left = true := by
  refine ⟨?_, fun q' h1 h2 => ?_⟩
  · simp [QtSrv.closeAction, h, ha]
  · simp [QtSrv.step, h1, h2]

/-- Whether a step tells the event loop to end: then it delivered a `close` request, and the server quits on close. -/
theorem qt_step_quit (q : QtSrv) (e : QtSrvEv) : (q.step e).1.quitOnClose = q.quitOnClose ∧ (q.step e).1.hasApp = q.hasApp ∧
    ((q.step e).1.quit = true → q.quit = true ∨
      q.quitOnClose = true ∧ q.hasApp = true ∧ q.left = false ∧ ∃ c k s, (c, k, "close", s) ∈ acceptedIn (srvOuts (q.step e).2)) ∧
    ((q.step e).1.left = true → q.left = true ∨ q.quit = true ∧ q.srv.stack = []) := by
  have hp : ∀ (H : Heap) (q : QtSrv) (c : Bytes) (m : Msg), (q.process H c m).1.quitOnClose = q.quitOnClose ∧ (q.process H c m).1.hasApp = q.hasApp ∧
      (q.process H c m).1.left = q.left ∧
      ((q.process H c m).1.quit = true → q.quit = true ∨ m.action = "close" ∧ q.quitOnClose = true ∧ q.hasApp = true) := by
    intro H q c m
    unfold QtSrv.process
    by_cases ha : m.action = "close"
    · simp only [ha, if_true, true_and]
      split
      · exact ⟨rfl, rfl, rfl, Or.inl⟩
      · split
        · exact ⟨rfl, rfl, rfl, Or.inl⟩
        · split
          · exact ⟨rfl, rfl, rfl, Or.inl⟩
          · simp only [QtSrv.finish, QtSrv.closeAction]
            split
            · exact ⟨rfl, rfl, rfl, Or.inl⟩
            · rename_i hq
              refine ⟨rfl, rfl, rfl, fun h => ?_⟩
              revert h hq
              cases q.quit <;> cases q.quitOnClose <;> cases q.hasApp <;> simp
    · rw [if_neg ha]
      exact ⟨rfl, rfl, rfl, Or.inl⟩
  cases e with
  | arrive p => exact ⟨rfl, rfl, Or.inl, Or.inl⟩
  | go H => exact ⟨rfl, rfl, Or.inl, Or.inl⟩
  | leave =>
    refine ⟨rfl, rfl, Or.inl, fun h => ?_⟩
    simp only [QtSrv.step, Bool.or_eq_true, Bool.and_eq_true, List.isEmpty_iff] at h
    exact h
  | own e => cases e <;> exact ⟨rfl, rfl, Or.inl, Or.inl⟩
  | deliver H =>
    simp only [QtSrv.step]
    split
    · exact ⟨rfl, rfl, Or.inl, Or.inl⟩
    · rename_i hl
      simp only [QtSrv.deliver]
      split
      · exact ⟨rfl, rfl, Or.inl, Or.inl⟩
      · rename_i name msg r _
        obtain ⟨h1, h2, h3, h4⟩ := hp H { q with relay := { q.relay with signals := r } } name msg
        refine ⟨h1, h2, fun h => ?_, fun h => Or.inl (h3.symm.trans h)⟩
        rcases h4 h with h | ⟨ha, hq, happ⟩
        · exact Or.inl h
        · refine Or.inr ⟨hq, happ, Bool.eq_false_iff.2 hl, name, msg.reqId, msg.serType, ?_⟩
          simp only [QtSrv.post]
          rw [srvOuts_srv]
          simp [acceptedIn, ha]

/-- **C83** The event loop of a process with a Qt server ends only on a client's request: however the poll thread and the Qt thread interleave, and whatever arrives, the loop ends only
if the server was made to quit on close and a `close` request was taken up before. A server made with `quit_on_close=False` never ends it. -/
theorem C83_only_closed (addr : String) (tys : List Ty) (self : Val) (quitOnClose hasApp : Bool) (es : List QtSrvEv)
    (h : ((QtSrv.init addr tys self quitOnClose hasApp).run es).1.left = true) :
    quitOnClose = true ∧ hasApp = true ∧ ∃ c k s, (c, k, "close", s) ∈ acceptedIn (srvOuts ((QtSrv.init addr tys self quitOnClose hasApp).run es).2) := by
  have key : ∀ (es : List QtSrvEv) (q : QtSrv), ((q.run es).1.quit = true ∨ (q.run es).1.left = true) → q.quit = true ∨ q.left = true ∨
      q.quitOnClose = true ∧ q.hasApp = true ∧ ∃ c k s, (c, k, "close", s) ∈ acceptedIn (srvOuts (q.run es).2) := by
    intro es
    induction es with
    | nil => intro q h; rcases h with h | h; exact Or.inl h; exact Or.inr (Or.inl h)
    | cons e es ih =>
      intro q h
      obtain ⟨s1, s2, s3, s4⟩ := qt_step_quit q e
      simp only [QtSrv.run] at h ⊢
      rw [srvOuts_append, acceptedIn_append]
      rcases ih _ h with h | h | ⟨h1, h2, c, k, s, h3⟩
      · rcases s3 h with h | ⟨h1, h2, _, c, k, s, h3⟩
        · exact Or.inl h
        · exact Or.inr (Or.inr ⟨h1, h2, c, k, s, List.mem_append_left _ h3⟩)
      · rcases s4 h with h | ⟨h, _⟩
        · exact Or.inr (Or.inl h)
        · exact Or.inl h
      · exact Or.inr (Or.inr ⟨s1 ▸ h1, s2 ▸ h2, c, k, s, List.mem_append_right _ h3⟩)
  rcases key es _ (Or.inr h) with h | h | h
  · exact absurd h (by simp [QtSrv.init])
  · exact absurd h (by simp [QtSrv.init])
  · exact h

/-- the loop of a server that quits on close, closed by B, has ended -/
theorem Ex.qt_left : ((QtSrv.init "tcp://a:1" [] self true true).run (Ex.qtAfterClose.take 5 ++ [.leave])).1.left = true := by decide +kernel
example := C83_only_closed "tcp://a:1" [] Ex.self true true (Ex.qtAfterClose.take 5 ++ [.leave]) Ex.qt_left

/-- hypotheses of C84: the history after the close, seen from every event -/
example : (∀ e ∈ Ex.qtAfterClose, e.In lib heap) ∧ Ty.int ∈ effTypes [] := by
  refine ⟨?_, by decide⟩
  simp only [Ex.qtAfterClose, Ex.qtRead, Ex.qtSend]
  simp [QtSrvEv.In, Ev.heap, heap]
/-- both requests are answered once -/
example : countReplies lib [66] 1 (srvOuts ((Ex.qt false).run Ex.qtAfterClose).2) = 1 ∧ countReplies lib [65] 2 (srvOuts ((Ex.qt false).run Ex.qtAfterClose).2) = 1 ∧
    (netOuts ((Ex.qt false).run Ex.qtAfterClose).2).length = 2 := by decide +kernel
/-- hypotheses of C83: with `quit_on_close` the loop ends after the close, and what comes later stays unread -/
example : ((Ex.qt true).run (Ex.qtAfterClose.take 5 ++ [.leave])).1.left = true := by decide +kernel
example : (srvOuts (((Ex.qt true).run (Ex.qtAfterClose.take 5 ++ [.leave])).1.run (Ex.qtAfterClose.drop 5)).2).length = 0 ∧
    (((Ex.qt true).run (Ex.qtAfterClose.take 5 ++ [.leave])).1.run (Ex.qtAfterClose.drop 5)).1.relay.signals.length = 1 := by decide +kernel

namespace Ex

/-! ## The theorems on these cases -/

theorem qtAfterClose_in : ∀ e ∈ qtAfterClose, e.In lib heap := by
  simp only [qtAfterClose, qtRead, qtSend]
  simp [QtSrvEv.In, Ev.heap, heap]
example := C84_one_reply laws heap "tcp://a:1" [] self false true (by decide) qtAfterClose qtAfterClose_in [65] 2
example := C84_sent laws heap "tcp://a:1" [] self false true (by decide) qtAfterClose qtAfterClose_in
example := C84_accepted laws heap "tcp://a:1" [] self false true (by decide) qtAfterClose qtAfterClose_in
example := C83_left_partial laws heap (qtAfterClose.drop 5) ((qt true).run (qtAfterClose.take 5 ++ [.leave])).1 (by decide +kernel) (by decide +kernel)
  fun e he => qtAfterClose_in e (List.mem_of_mem_drop he)
example := C83_quits_partial (qt true) [66] rfl rfl

end Ex

end Verif
