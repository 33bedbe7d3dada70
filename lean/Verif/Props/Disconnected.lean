import Verif.Props.SystemClose
import Verif.Props.SystemCloseExample
/-!
# Property C106: `disconnected()` and `close_server()` tell the truth
-/
namespace Verif

section
variable {K : Codec} {L : Lib} {idOf : Obj → Nat} {addr : String} {tys : List Ty} {self : Val} {sers : Bytes → Ser} {es : List SEv}

/-- a close request answered with a value has closed the server -/
theorem completes_close {s : Srv} {H parts c k rt v s1 m ser w} (h : Completes s (.recv H parts) c k rt (.ok v) s1)
    (hm : readOne H parts = .ok (c, m)) (ha : m.action = "close") (hsend : .send c ser w ∈ (s.step (.recv H parts)).2) :
    (s.step (.recv H parts)).1.closed = true := by
  rcases h with ⟨o, a, st, b, ser, opts, h1, h2, h3, h4, h5, h6⟩ | ⟨H1, p1, m', x, ser, he, h2, h1, hk, hrt, h3, h5, h6, h7⟩
  · rw [hm] at h1
    simp only [Except.ok.injEq, Prod.mk.injEq, true_and] at h1
    subst h1
    simp only at ha
    subst ha
    have hc := step_cases s (.recv H parts)
    generalize (s.step (.recv H parts)).1 = s' at hc ⊢
    generalize (s.step (.recv H parts)).2 = os at hc hsend
    cases hc with
    | idle h1 _ _ _ _ _ _ =>
      obtain ⟨y, hy⟩ := h1 _ hsend
      simp at hy
    | start _ hr' _ _ _ hact =>
      rw [hm] at hr'
      simp only [Except.ok.injEq, Prod.mk.injEq] at hr'
      obtain ⟨rfl, rfl⟩ := hr'
      simp [Srv.action] at hact
    | refused _ hr' hx =>
      exfalso
      rw [hm] at hr'
      simp only [Except.ok.injEq, Prod.mk.injEq] at hr'
      obtain ⟨rfl, rfl⟩ := hr'
      rcases hx with hx | hx | ⟨ser', hx, hx'⟩
      · rw [h3] at hx; simp at hx
      · exact h4 hx
      · rw [h3] at hx; simp only [Option.some.injEq] at hx; subst hx
        rw [show Msg.payload H { s with clients := s.clients.set c st } _ ser = Msg.payload H s _ ser from rfl, hx'] at h5
        simp at h5
    | @answered H parts c m ser opts s1 o r hs hr' hser hu hp hact =>
      rw [hm] at hr'
      simp only [Except.ok.injEq, Prod.mk.injEq] at hr'
      obtain ⟨rfl, rfl⟩ := hr'
      rw [finish_closed]
      simp only [Srv.action, Started.finished.injEq] at hact
      rw [← hact.1]
      unfold Srv.closeAction
      simp only
      split
      · rfl
      · split <;> rfl
  · simp at h6

/-- a server that has closed stays closed -/
theorem stays_closed {es1 es2 : List SEv} {pre e post} (h : (Sys.init (Srv.init addr tys self) sers).srvHist K es1 = pre ++ e :: post)
    (hc : (((Srv.init addr tys self).run pre).1.step e).1.closed = true) :
    ((Sys.init (Srv.init addr tys self) sers).run K (es1 ++ es2)).srv.closed = true := by
  rw [sys_run_srv, srvHist_append, h, List.append_assoc, run_append_state]
  exact (closed_run _ hc).1

/-- the reply to a close request that holds a value was sent by a server that closed -/
theorem true_reply_closed (W : World K L idOf (Srv.init addr tys self) sers es) {n : Bytes} {a P w b}
    (h : (Sys.init (Srv.init addr tys self) sers).cliHist K n es = a ++ .recv P w :: b) {d k q}
    {x : Val} (hr : (sers n).loads P.recv w = .ok (.dict d)) (hk : IsReply P d k) (hsays : Says P d (.value x))
    (hq' : q ∈ (Sys.init (Srv.init addr tys self) sers).asked K es n) (hqk' : q.id = k) (hqa : q.action = "close") :
    ((Sys.init (Srv.init addr tys self) sers).run K es).srv.closed = true := by
  have hR := reads_of W (n := n) (P := P) (w := w) (by rw [h]; simp)
  obtain ⟨es1, es2, rfl, h1, h2⟩ := read_causal W h
  obtain ⟨pre, e, post, h3, h4⟩ := run_out_split h2
  rcases reply_sent W.prefix h3 h4 with ⟨_, hc⟩ | ⟨k', rt, r, s1, q0, hk0, hcomp, hrep, hq, hqk, _, hlink, hlive, _⟩
  · exact stays_closed h3 hc
  obtain ⟨hkk, hrep'⟩ := reports hrep (hlink _ hR) hlive hr hk hsays
  have hok : ∃ v, r = .ok v := by
    cases r with
    | ok v => exact ⟨v, rfl⟩
    | error x => cases hrep'
  obtain ⟨v, rfl⟩ := hok
  obtain ⟨H0, parts, m, hin, hm, hmk, hmrt, hcl⟩ := completes_request (init_stack addr tys self) hcomp
  have hin' : Ev.recv H0 (n :: parts) ∈ (Sys.init (Srv.init addr tys self) sers).srvHist K es1 := by
    have hh : (Sys.init (Srv.init addr tys self) sers).srvHist K es1 = pre ++ e :: post := h3
    rw [hh]
    rcases List.mem_append.1 hin with h | h
    · exact List.mem_append_left _ h
    · simp only [List.mem_singleton] at h; subst h; simp
  obtain ⟨n', q2, hq2, hqa2⟩ := recv_asked (A := fun _ => []) W.prefix.fits (fun _ => rfl) hin'
  simp only [List.not_mem_nil, false_or] at hqa2
  simp only [List.cons.injEq] at hq2
  obtain ⟨rfl, rfl⟩ := hq2
  obtain ⟨se0, hse0, hheap0⟩ := srvHist_heap hin'
  have hm0 := readOne_parts (H := H0) (W.prefix.fits se0 hse0 H0 hheap0) n q2
  rw [hm0] at hm
  simp only [Except.ok.injEq, Prod.mk.injEq, true_and] at hm
  subst hm
  simp only at hmk hmrt hcl
  have hmono : q2 ∈ (Sys.init (Srv.init addr tys self) sers).asked K (es1 ++ es2) n := by
    rw [Sys.asked, cliHist_append]; exact asked_mono hqa2
  have := asked_unique hmono hq' (by rw [hmk, hkk, hqk']) (by omega)
  subst this
  have he := hcl hqa
  subst he
  exact stays_closed h3 (completes_close hcomp hm0 hqa h4)

/-- a message that tells a client of the server's end was sent by a server that closed -/
theorem tells_closed (W : World K L idOf (Srv.init addr tys self) sers es) {n : Bytes} {a P w b}
    (h : (Sys.init (Srv.init addr tys self) sers).cliHist K n es = a ++ .recv P w :: b)
    (ht : Tells P ((Cli.init n (sers n)).run K a).1 w) : ((Sys.init (Srv.init addr tys self) sers).run K es).srv.closed = true := by
  obtain ⟨d, hr, ht⟩ := ht
  rw [Cli.reads, (run_const K _ _).2.1] at hr
  rcases ht with ht | ⟨k, hk, hsays, htab⟩
  · have hR := reads_of W (n := n) (P := P) (w := w) (by rw [h]; simp)
    obtain ⟨es1, es2, rfl, h1, h2⟩ := read_causal W h
    obtain ⟨pre, e, post, h3, h4⟩ := run_out_split h2
    rcases reply_sent W.prefix h3 h4 with ⟨_, hc⟩ | ⟨k', rt, r, s1, q, hk0, hcomp, hrep, hq, hqk, _, hlink, hlive, _⟩
    · exact stays_closed h3 hc
    · obtain ⟨rv, ev, d', hv, hd, _⟩ := replyOf_serverMsg hrep (hlink _ hR) hlive hr
      simp only [Val.dict.injEq] at hv
      subst hv
      exact absurd ht (replyDict_not_disconnect hd)
  · rcases table_asked htab with h5 | ⟨q, h5, h6, h7⟩
    · simp [Cli.init] at h5
    refine true_reply_closed W h hr hk hsays (q := q) ?_ h6 (by simpa using h7)
    rw [Sys.asked, h]; exact asked_mono h5

/-! ## The property -/

/-- **C106 (partial)** In every run of a server and its clients, a client that counts as disconnected has a server that was
closed. -/
theorem C106_truthful (W : World K L idOf (Srv.init addr tys self) sers es) {n : Bytes}
    (hd : (((Sys.init (Srv.init addr tys self) sers).run K es).cli n).disconnected = true) :
    ((Sys.init (Srv.init addr tys self) sers).run K es).srv.closed = true := by
  rw [sys_run_cli, cli_init_eq] at hd
  obtain ⟨a, P, w, b, hab, ht⟩ := disconnected_origin (show (Cli.init n (sers n)).disconnected = false from rfl) hd
  exact tells_closed W hab ht

/-- **C106 (partial)** A close request whose future holds a value (whatever it is) was carried out: the server was closed. -/
theorem C106_answer (W : World K L idOf (Srv.init addr tys self) sers es) {n : Bytes} {q : Asked} {k : Nat}
    (hq : q ∈ (Sys.init (Srv.init addr tys self) sers).asked K es n) (hqa : q.action = "close") (hqk : q.id = k)
    {v : Val} (hf : (((Sys.init (Srv.init addr tys self) sers).run K es).cli n).fut k = some (.value v)) :
    ((Sys.init (Srv.init addr tys self) sers).run K es).srv.closed = true := by
  rw [sys_run_cli] at hf
  rcases fut_origin (f := .value v) trivial (by rw [cli_init_eq]; exact Cli.inv_init _ _) hf with h | ⟨P, w, d, hrecv, hreads, hisr, hsays⟩
  · simp [cli_init_eq, Cli.fut, Cli.init] at h
  obtain ⟨a, b, hab⟩ := List.append_of_mem hrecv
  exact true_reply_closed W hab hreads hisr hsays hq hqk hqa

/-! ## The calls -/

/-- a message a server sends is handled without an exception -/
theorem processMsg_serverMsg (P : CliEnv) (c : Cli) {d : List (Val × Val)} (h : ServerMsg d) : (c.processMsg P (.dict d)).2 = .ok () := by
  rcases h with h | ⟨h1, ⟨i, h2⟩, ⟨v, h3⟩, h4⟩
  · simp only [IsDisconnect] at h
    simp only [Cli.processMsg, field, h]
  · simp only [Cli.processMsg, field, h1, h2]
    simp only [bind, Except.bind, reqKey]
    split
    · rfl
    · split
      · rfl
      · rcases h4 with h4 | ⟨a, b, h4 | h4⟩
        · simp only [h4, h3]
          split <;> rfl
        · simp only [h4, unpack2]
        · simp only [h4, unpack2]

/-- a run goes on with client `n` reading a message -/
theorem World.deliver (W : World K L idOf (Srv.init addr tys self) sers es) (n : Bytes) {P : CliEnv} (hR : Reads L addr P.recv) (junk : Wire) :
    World K L idOf (Srv.init addr tys self) sers (es ++ [.deliver n P junk]) where
  laws := W.laws
  types := W.types
  fits e he H hH := by
    rcases List.mem_append.1 he with he | he
    · exact W.fits e he H hH
    · simp only [List.mem_singleton] at he; subst he; simp [SEv.heap?] at hH
  lib e he H hH := by
    rcases List.mem_append.1 he with he | he
    · exact W.lib e he H hH
    · simp only [List.mem_singleton] at he; subst he; simp [SEv.heap?] at hH
  read n' P' junk' he := by
    rcases List.mem_append.1 he with he | he
    · exact W.read n' P' junk' he
    · simp only [List.mem_singleton, SEv.deliver.injEq] at he
      obtain ⟨rfl, rfl, rfl⟩ := he
      exact ⟨hR.lib, hR.server⟩
  live := by
    rw [srvHist_append]
    simpa [Sys.srvHist, Sys.srvEvs] using W.live
  small n' E t a o rt sy w he hd := by
    rcases List.mem_append.1 he with he | he
    · exact W.small n' E t a o rt sy w he hd
    · simp at he

/-- reading the messages under way: no ZMQError, and the client counts as disconnected only if the server was closed -/
theorem receiveAll_truthful {n : Bytes} {P : CliEnv} (hR : Reads L addr P.recv) :
    ∀ (ws : List (Ser × Wire)) {rest : List (Ser × Wire)} {es : List SEv}, (∀ p ∈ ws, (sers n).loads P.recv p.2 ≠ .error .zmqError) → World K L idOf (Srv.init addr tys self) sers es →
      ((Sys.init (Srv.init addr tys self) sers).run K es).down n = ws ++ rest →
      (((Sys.init (Srv.init addr tys self) sers).run K es).cli n).sockOpen = true →
      ((((Sys.init (Srv.init addr tys self) sers).run K es).cli n).receiveAll P (ws.map (·.2))).2.2 ≠ .error .zmqError ∧
      (((((Sys.init (Srv.init addr tys self) sers).run K es).cli n).receiveAll P (ws.map (·.2))).1.disconnected = true →
        ((Sys.init (Srv.init addr tys self) sers).run K es).srv.closed = true)
  | [], rest, es, _, W, _, ho => by
    simp only [List.map_nil, Cli.receiveAll, ho]
    exact ⟨by simp, fun h => C106_truthful W h⟩
  | (ser, w) :: ws, rest, es, hz, W, hd, ho => by
    have W' := W.deliver n hR .nil
    have hinv : SInv K ((Sys.init (Srv.init addr tys self) sers).run K es) := SInv.run (SInv.init (K := K) (init_clients addr tys self) sers) W.fits
    have hser : ser = (((Sys.init (Srv.init addr tys self) sers).run K es).cli n).ser := hinv.down n (ser, w) (by rw [hd]; simp)
    have hser' : (((Sys.init (Srv.init addr tys self) sers).run K es).cli n).ser = sers n := by rw [sys_run_ser]; rfl
    have ih := receiveAll_truthful hR ws (rest := rest) (fun p hp => hz p (List.mem_cons_of_mem _ hp)) W'
    have htrue := C106_truthful W' (n := n)
    have hmsgs := serverMsgs_of W' n P w
    have hmem : .recv P w ∈ (Sys.init (Srv.init addr tys self) sers).cliHist K n (es ++ [.deliver n P .nil]) := by
      rw [cliHist_append]
      refine List.mem_append_right _ ?_
      simp [Sys.cliHist, Sys.cliEvs, ho, hd, hser]
    rw [sys_run_append] at ih htrue
    generalize (Sys.init (Srv.init addr tys self) sers).run K es = s at *
    have hstep : s.run K [.deliver n P .nil] = { s with down := upd s.down n (ws ++ rest) }.client K n (.recv P w) := by
      show s.step K (.deliver n P .nil) = _
      simp only [Sys.step, ho, if_true, hd, List.cons_append, hser]
    rw [hstep] at ih htrue
    have hcli : ({ s with down := upd s.down n (ws ++ rest) }.client K n (.recv P w)).cli n = ((s.cli n).receive P w).1 := by
      simp [Sys.client, upd, Cli.step]
    have hsrv : ({ s with down := upd s.down n (ws ++ rest) }.client K n (.recv P w)).srv = s.srv := rfl
    have hdown : ({ s with down := upd s.down n (ws ++ rest) }.client K n (.recv P w)).down n = ws ++ rest := by
      simp [Sys.client, upd]
    rw [hcli, hsrv, hdown] at ih
    rw [hcli, hsrv] at htrue
    have ih := ih rfl (by rw [(receive_const P (s.cli n) w).2.2.2.1]; exact ho)
    have hne : ((s.cli n).receive P w).2 ≠ .error .zmqError := by
      unfold Cli.receive
      rw [if_neg (by simp [ho]), hser']
      split
      · rename_i e he
        intro h
        simp only [Except.error.injEq] at h
        subst h
        exact hz (ser, w) List.mem_cons_self he
      · rename_i v hv
        obtain ⟨d, rfl, hm⟩ := hmsgs v hmem hv
        rw [processMsg_serverMsg P _ hm]; simp
    simp only [List.map_cons, Cli.receiveAll]
    generalize (s.cli n).receive P w = y at *
    obtain ⟨c, r⟩ := y
    cases r with
    | ok u => exact ih
    | error e =>
      by_cases he : e = .timeoutError
      · subst he; exact ⟨by simp, htrue⟩
      · split
        · simp_all
        · simp_all
        · rename_i h1 _ _ heq
          simp only [Prod.mk.injEq, Except.error.injEq] at heq
          obtain ⟨rfl, rfl⟩ := heq
          exact ⟨by simpa using hne, htrue⟩

/-- **C106 (partial)** `disconnected()`, called while any messages have arrived, returns True only if the server was closed.
Missing: the client's own socket must be open (otherwise: `Ex.C106_fails`). -/
theorem C106_disconnected_partial (W : World K L idOf (Srv.init addr tys self) sers es) {n : Bytes} {P : CliEnv} (hR : Reads L addr P.recv)
    {ws rest : List (Ser × Wire)} (hz : ∀ p ∈ ws, (sers n).loads P.recv p.2 ≠ .error .zmqError)
    (hd : ((Sys.init (Srv.init addr tys self) sers).run K es).down n = ws ++ rest)
    (ho : (((Sys.init (Srv.init addr tys self) sers).run K es).cli n).sockOpen = true)
    (h : ((((Sys.init (Srv.init addr tys self) sers).run K es).cli n).checkDisconnected P (ws.map (·.2))).2.2 = .ok true) :
    ((Sys.init (Srv.init addr tys self) sers).run K es).srv.closed = true := by
  obtain ⟨h1, h2⟩ := receiveAll_truthful hR ws hz W hd ho
  unfold Cli.checkDisconnected at h
  split at h
  · rename_i h3; exact C106_truthful W h3
  · generalize (((Sys.init (Srv.init addr tys self) sers).run K es).cli n).receiveAll P (ws.map (·.2)) = y at h h1 h2
    obtain ⟨c, l, r⟩ := y
    split at h
    · simp_all
    · simp_all
    · simp at h

/-- **C106 (partial)** `close_server()` returns True without asking only if the server was closed; otherwise it sends a
close request (whose answer True tells that the server was closed: `C106_answer`). Missing: as above. -/
theorem C106_close_server_partial (W : World K L idOf (Srv.init addr tys self) sers es) {n : Bytes} {P : CliEnv} (hR : Reads L addr P.recv)
    {ws rest : List (Ser × Wire)} (hz : ∀ p ∈ ws, (sers n).loads P.recv p.2 ≠ .error .zmqError)
    (hd : ((Sys.init (Srv.init addr tys self) sers).run K es).down n = ws ++ rest)
    (ho : (((Sys.init (Srv.init addr tys self) sers).run K es).cli n).sockOpen = true) (E : SendEnv) (t : Refs) (rt sy : String)
    (h : ((((Sys.init (Srv.init addr tys self) sers).run K es).cli n).closeServer K E t P (ws.map (·.2)) rt sy).2.2.2.2 = .ok none) :
    ((Sys.init (Srv.init addr tys self) sers).run K es).srv.closed = true := by
  refine C106_disconnected_partial W hR hz hd ho ?_
  unfold Cli.closeServer at h
  generalize (((Sys.init (Srv.init addr tys self) sers).run K es).cli n).checkDisconnected P (ws.map (·.2)) = y at h
  obtain ⟨c, l, r⟩ := y
  split at h
  · simp at h
  · simp_all
  · split at h <;> simp at h

end

namespace Ex

/-- C106: the server was closed by B; A, with both its messages unread, learns of it by calling `disconnected()`, and B by
the answer to its close request. -/
def evsUnread : List SEv := evsClose.take 8

theorem world_unread : World codec2 lib heap2.idOf srv sers2 evsUnread := by
  have h := world_close
  rw [← List.take_append_drop 8 evsClose] at h
  exact h.prefix

example : (sys.run codec2 evsUnread).srv.closed = true := by
  refine C106_disconnected_partial (P := cenv) (n := nA) (rest := []) world_unread ⟨rfl, by simp [cenv]⟩ ?_ (List.append_nil _).symm ?_ ?_
  · have h : (((sys.run codec2 evsUnread).down nA).all fun p => match (sers2 nA).loads cenv.recv p.2 with
        | .ok _ => true
        | .error _ => false) = true := by decide +kernel
    intro p hp h1
    have := List.all_eq_true.1 h p hp
    simp only [h1] at this
    simp at this
  · decide +kernel
  · have h : (match (((sys.run codec2 evsUnread).cli nA).checkDisconnected cenv (((sys.run codec2 evsUnread).down nA).map (·.2))).2.2 with
        | .ok b => b
        | .error _ => false) = true := by decide +kernel
    show (((sys.run codec2 evsUnread).cli nA).checkDisconnected cenv (((sys.run codec2 evsUnread).down nA).map (·.2))).2.2 = .ok true
    split at h
    · rename_i b hb; rw [hb, h]
    · simp at h
example : ((sys.run codec2 evsUnread).cli nA).disconnected = false ∧ ((sys.run codec2 evsUnread).down nA).length = 2 := by decide +kernel
example : (sys.asked codec2 evsClose nB).map (fun q => (q.action, q.id)) = [("ping", 0), ("close", 1)] := by decide +kernel

/-- B closes its socket; A goes on. -/
def evsShut : List SEv :=
  [req nB pingReq "auto" "async", .serve nB heap2, rd nB, .closeClient nB, req nA pingReq "auto" "async", .serve nA heap2, rd nA]

/-- **C106 fails** for a client that has closed its own socket (`close()` promises to "leave the server running"): then
`disconnected()` is True, and `close_server()` sends nothing and returns True, while the server is running and
answers others. (Using the closed socket raises ZMQError, which client.py:222-223 takes for a disconnect.) -/
theorem C106_fails : World codec2 lib heap2.idOf srv sers2 evsShut ∧
    (((sys.run codec2 evsShut).cli nB).checkDisconnected cenv []).2.2 = .ok true ∧
    (((sys.run codec2 evsShut).cli nB).closeServer codec2 csend Refs.init cenv [] "auto" "sync").2.2.2 = (none, .ok none) ∧
    (sys.run codec2 evsShut).srv.closed = false ∧ (sys.run codec2 evsShut).srv.sockOpen = true ∧
    .done nA 0 none ∈ sys.outs codec2 evsShut := by
  refine ⟨world2 (by simp [evsShut, req, rd, SEv.heap?]) (by simp only [evsShut, req, rd, List.mem_cons, List.not_mem_nil, reduceCtorEq, false_or, or_false, SEv.deliver.injEq]; rintro n P j (h | h) <;> exact h.2.1), ?_, ?_, ?_, ?_, ?_⟩
  · have h : (match (((sys.run codec2 evsShut).cli nB).checkDisconnected cenv []).2.2 with
        | .ok b => b
        | .error _ => false) = true := by decide +kernel
    split at h
    · rename_i b hb; rw [hb, h]
    · simp at h
  · have h : (match (((sys.run codec2 evsShut).cli nB).closeServer codec2 csend Refs.init cenv [] "auto" "sync").2.2.2 with
        | (none, .ok none) => true
        | _ => false) = true := by decide +kernel
    split at h
    · assumption
    · simp at h
  · decide +kernel
  · decide +kernel
  · have h : ((sys.outs codec2 evsShut).any fun o => match o with
        | .done c k none => decide (c = nA) && decide (k = 0)
        | _ => false) = true := by decide +kernel
    obtain ⟨o, ho, h⟩ := List.any_eq_true.1 h
    split at h
    · simp only [Bool.and_eq_true, decide_eq_true_eq] at h
      obtain ⟨rfl, rfl⟩ := h
      exact ho
    · simp at h

end Ex

namespace Ex

example := C106_truthful (n := nA) world_close (by decide +kernel)
/-- The close request of B is answered. -/
example : (sys.run codec2 evsClose).srv.closed = true := by
  have hq : ∃ q ∈ sys.asked codec2 evsClose nB, q.action = "close" ∧ q.id = 1 := by
    have : (sys.asked codec2 evsClose nB).any (fun q => q.action == "close" && q.id == 1) = true := by decide +kernel
    obtain ⟨q, h1, h2⟩ := List.any_eq_true.1 this
    simp only [Bool.and_eq_true, beq_iff_eq] at h2
    exact ⟨q, h1, h2.1, h2.2⟩
  obtain ⟨q, h1, h2, h3⟩ := hq
  have hf : (match ((sys.run codec2 evsClose).cli nB).fut 1 with | some (.value _) => true | _ => false) = true := by decide +kernel
  split at hf
  · next v hv => exact C106_answer world_close h1 h2 h3 hv
  · cases hf

example : (sys.run codec2 evsUnread).srv.closed = true := by
  refine C106_close_server_partial (P := cenv) (n := nA) (rest := []) world_unread ⟨rfl, by simp [cenv]⟩ ?_ (List.append_nil _).symm ?_ csend Refs.init "auto" "sync" ?_
  · have h : (((sys.run codec2 evsUnread).down nA).all fun p => match (sers2 nA).loads cenv.recv p.2 with
        | .ok _ => true
        | .error _ => false) = true := by decide +kernel
    intro p hp h1
    have := List.all_eq_true.1 h p hp
    simp only [h1] at this
    simp at this
  · decide +kernel
  · have h : (match (((sys.run codec2 evsUnread).cli nA).closeServer codec2 csend Refs.init cenv (((sys.run codec2 evsUnread).down nA).map (·.2)) "auto" "sync").2.2.2.2 with
        | .ok none => true
        | _ => false) = true := by decide +kernel
    show (((sys.run codec2 evsUnread).cli nA).closeServer codec2 csend Refs.init cenv (((sys.run codec2 evsUnread).down nA).map (·.2)) "auto" "sync").2.2.2.2 = .ok none
    split at h
    · next hb => exact hb
    · simp at h

end Ex

end Verif
