import Verif.Proof.System
/-!
# Properties C34 and C35: several clients and a server
-/
namespace Verif

theorem init_stack (addr tys self) : (Srv.init addr tys self).stack = [] := rfl
theorem init_clients (addr tys self) : (Srv.init addr tys self).clients = [] := rfl

/-! ## C34 -/

/-- a future done by a reply: the request, its execution, and the step that sent the reply -/
theorem answered_trace {K : Codec} {L : Lib} {idOf : Obj → Nat} {addr : String} {tys : List Ty} {self : Val} {sers : Bytes → Ser}
    {es : List SEv} (W : World K L idOf (Srv.init addr tys self) sers es) {n : Bytes} {k : Nat} {f : Fut}
    (hf : (((Sys.init (Srv.init addr tys self) sers).run K es).cli n).fut k = some f) (ha : f.answered) :
    ∃ q, q ∈ (Sys.init (Srv.init addr tys self) sers).asked K es n ∧ q.id = k ∧
      (∀ q' ∈ (Sys.init (Srv.init addr tys self) sers).asked K es n, q'.id = k → q' = q) ∧
      ∃ H r s1 s2 P junk, Execution (Srv.init addr tys self) ((Sys.init (Srv.init addr tys self) sers).srvHist K es) n (q.parts K) k q.returnType H r s1 s2 ∧
        SEv.deliver n P junk ∈ es ∧ Reports L n k H P.recv q.ser s1 s2.refs q.returnType r f ∧
        ∃ pre e post ser w s1, (Sys.init (Srv.init addr tys self) sers).srvHist K es = pre ++ e :: post ∧ .send n ser w ∈ (((Srv.init addr tys self).run pre).1.step e).2 ∧
          Completes ((Srv.init addr tys self).run pre).1 e n k q.returnType r s1 := by
  -- the reply that was read
  rw [sys_run_cli] at hf
  have hcli : (Sys.init (Srv.init addr tys self) sers).cli n = Cli.init n (sers n) := rfl
  rcases fut_origin ha (by rw [hcli]; exact Cli.inv_init _ _) hf with h | ⟨P, w, d, hrecv, hreads, hisr, hsays⟩
  · simp [hcli, Cli.fut, Cli.init] at h
  obtain ⟨junk, hdel⟩ := cliHist_recv hrecv
  -- was sent by the server
  have hinv := SInv.init (K := K) (init_clients addr tys self) sers
  rcases read_sent hinv W.fits hrecv with h | hsend
  · simp [Sys.init] at h
  -- in the step that completed some request
  obtain ⟨pre, e, post, hhist, hmem⟩ := run_out_split hsend
  have hwf : ((Srv.init addr tys self).run pre).1.clients.WF := run_wf (by simp [init_clients, Dict.WF]) pre
  obtain ⟨hser, h | ⟨k', rt, r, s1, hk', hcomp, hrep⟩⟩ := step_sends hwf hmem
  · exfalso
    obtain ⟨rfl, _⟩ := h
    have : (Val.dict d) = .dict [(.str "action", .str "disconnect")] := by
      rw [Cli.reads] at hreads
      revert hreads
      cases ((Sys.init (Srv.init addr tys self) sers).cli n).ser with
      | msgpack =>
        intro h
        have h2 : (Ser.msgpack).loads P.recv disconnectWire = .ok (.dict [(.str "action", .str "disconnect")]) := rfl
        rw [h2] at h; simp only [Except.ok.injEq] at h; exact h.symm
      | json =>
        intro h
        have h2 : (Ser.json).loads P.recv disconnectWire = .ok (.dict [(.str "action", .str "disconnect")]) := rfl
        rw [h2] at h; simp only [Except.ok.injEq] at h; exact h.symm
    simp only [Val.dict.injEq] at this
    subst this
    exact isReply_disconnect hisr (by simp [IsDisconnect, lookupStr])
  · have hpath := completes_state hcomp
    have hlive : LiveTable e.heap s1.refs := (live_at (by rw [← hhist]; exact W.live)).path hpath.1
    have hc := run_const_srv pre (Srv.init addr tys self)
    have he : e ∈ (Sys.init (Srv.init addr tys self) sers).srvHist K es := by rw [hhist]; simp
    obtain ⟨se, hse, hheap⟩ := srvHist_heap he
    have hrd := W.read n P junk hdel
    have hlink : Link L (s1.sendEnv e.heap) P.recv := by
      refine ⟨W.laws, W.lib se hse _ hheap, hrd.1, ?_, ?_⟩
      · intro ty hty
        simp only [Srv.sendEnv]
        rw [hpath.2.2, hc.1]; exact W.types ty hty
      · intro a u hu hs
        simp only [Srv.sendEnv, Option.some.injEq] at hs
        rw [hpath.2.1, hc.2] at hs
        exact hrd.2 a u hu hs.symm
    obtain ⟨hkk, hreport⟩ := reports hrep hlink hlive hreads hisr hsays
    subst hkk
    obtain ⟨H0, parts, hin, ⟨m, hm, hmk, hmrt⟩, hex⟩ := execution_of (init_stack addr tys self) (post := post) hcomp
    rw [← hhist] at hex
    have hin' : Ev.recv H0 (n :: parts) ∈ (Sys.init (Srv.init addr tys self) sers).srvHist K es := by
      rw [hhist]
      rcases List.mem_append.1 hin with h | h
      · exact List.mem_append_left _ h
      · simp only [List.mem_singleton] at h; subst h; simp
    obtain ⟨n', q, hq, hqa⟩ := recv_asked (A := fun _ => []) W.fits (fun _ => rfl) hin'
    simp only [List.not_mem_nil, false_or] at hqa
    simp only [List.cons.injEq] at hq
    obtain ⟨rfl, rfl⟩ := hq
    obtain ⟨se0, hse0, hheap0⟩ := srvHist_heap hin'
    rw [readOne_parts (H := H0) (W.fits se0 hse0 H0 hheap0)] at hm
    simp only [Except.ok.injEq, Prod.mk.injEq, true_and] at hm
    subst hm
    simp only at hmk hmrt
    subst hmrt
    refine ⟨q, hqa, hmk, ?_, _, _, _, _, P, junk, hex, hdel, ?_, pre, e, post, _, w, _, hhist, hmem, hcomp⟩
    · intro q' hq' hid
      exact asked_unique hq' hqa (by omega) (by omega)
    · rw [asked_ser hqa]
      exact hreport

/-- **C34** In any run of a server and any number of clients, if the future of request `k` of client `n` is done by a reply,
then `n` sent exactly one request under `k`, the server read that very message and carried it out, and the future reports
the result of this execution: its exception, its value as the serializer carries it, or a proxy to the very object. -/
theorem C34_result {K : Codec} {L : Lib} {idOf : Obj → Nat} {addr : String} {tys : List Ty} {self : Val} {sers : Bytes → Ser}
    {es : List SEv} (W : World K L idOf (Srv.init addr tys self) sers es) {n : Bytes} {k : Nat} {f : Fut}
    (hf : (((Sys.init (Srv.init addr tys self) sers).run K es).cli n).fut k = some f) (ha : f.answered) :
    ∃ q, q ∈ (Sys.init (Srv.init addr tys self) sers).asked K es n ∧ q.id = k ∧
      (∀ q' ∈ (Sys.init (Srv.init addr tys self) sers).asked K es n, q'.id = k → q' = q) ∧
      ∃ H r s1 s2 P junk, Execution (Srv.init addr tys self) ((Sys.init (Srv.init addr tys self) sers).srvHist K es) n (q.parts K) k q.returnType H r s1 s2 ∧
        SEv.deliver n P junk ∈ es ∧ Reports L n k H P.recv q.ser s1 s2.refs q.returnType r f := by
  obtain ⟨q, h1, h2, h3, H, r, s1, s2, P, junk, h4, h5, h6, -⟩ := answered_trace W hf ha
  exact ⟨q, h1, h2, h3, H, r, s1, s2, P, junk, h4, h5, h6⟩

/-- **C34** What the server reads as options of a client's request is what its serializer reads from the very message tree
the client sent (what this is of the values sent: C17–C20); none if the client sent none. -/
theorem C34_options {K : Codec} {H : Heap} (hf : Fits K H) (s : Srv) (n : Bytes) (q : Asked) (hw : ∀ w, q.payload = some w → q.ser.Writable w) :
    ∃ m, readOne H (n :: q.parts K) = .ok (n, m) ∧ m.reqId = q.id ∧ m.action = q.action ∧ m.returnType = q.returnType ∧
      serOf m.serType = some q.ser ∧
      m.payload H s q.ser = match q.payload with
        | none => .ok .none
        | some w => q.ser.loads (s.recvEnv H) w := by
  refine ⟨_, readOne_parts hf n q, rfl, rfl, rfl, serOf_name _, ?_⟩
  cases hp : q.payload with
  | none => rfl
  | some w =>
    have := hf.tree q.ser w (hw w hp)
    simp [Msg.payload, this.1, this.2]

theorem countAccepted_started (n : Bytes) (k : Int) : ∀ os, countAccepted n k os = (started n os).countP (fun x => decide (x.1 = k))
  | [] => rfl
  | o :: os => by
    have ih := countAccepted_started n k os
    unfold countAccepted started at *
    cases o <;> simp only [List.countP_cons, List.filterMap_cons, ih, Bool.false_eq_true, if_false, Nat.add_zero]
    rename_i c k' a st
    by_cases hc : c = n
    · simp [hc, List.countP_cons]
    · simp [hc]

/-- **C34** No request with a reply is ever started twice, whatever is lost or delayed on the way. (That requests without
reply are not either is part of C35: the started requests are a subsequence of the sent ones.) -/
theorem C34_never_twice {K : Codec} {addr : String} {tys : List Ty} {self : Val} {sers : Bytes → Ser} {es : List SEv}
    (hf : ∀ e ∈ es, ∀ H, e.heap? = some H → Fits K H) (n : Bytes) (k : Int) (hk : 0 ≤ k) :
    countAccepted n k ((Sys.init (Srv.init addr tys self) sers).outs K es) ≤ 1 := by
  obtain ⟨tk, A', h1, _, h3, _⟩ := up_fifo (n := n) (s := Sys.init (Srv.init addr tys self) sers) (A := []) hf rfl
  rw [countAccepted_started, h1, List.countP_map]
  have hsub : tk.Sublist ((Sys.init (Srv.init addr tys self) sers).asked K es n) := by
    have := (List.sublist_append_left tk A').trans h3
    simpa using this
  refine Nat.le_trans (hsub.countP_le) ?_
  have hp := (asked_ids K ((Sys.init (Srv.init addr tys self) sers).cliHist K n es) ((Sys.init (Srv.init addr tys self) sers).cli n)).2.2.2
  rw [Sys.asked]
  generalize Cli.asked K _ _ = l at hp ⊢
  have : ∀ (l : List Asked), l.countP ((fun x : Int × String × String => decide (x.1 = k)) ∘ Asked.brief) =
      (l.filter (fun q => decide (q.id ≠ -1))).countP (fun q => decide (q.id = k)) := by
    intro l
    rw [List.countP_filter]
    apply List.countP_congr
    intro q _
    have : ((fun x : Int × String × String => decide (x.1 = k)) ∘ Asked.brief) q = decide (q.id = k) := rfl
    rw [this]
    simp only [decide_eq_true_eq, ne_eq, Bool.and_eq_true]
    exact ⟨fun h => ⟨h, by omega⟩, fun h => h.1⟩
  rw [this]
  generalize l.filter (fun q => decide (q.id ≠ -1)) = l at hp ⊢
  induction l with
  | nil => simp
  | cons a l ih =>
    obtain ⟨h5, h6⟩ := List.pairwise_cons.1 hp
    rw [List.countP_cons]
    split
    · rename_i ha
      have : l.countP (fun q => decide (q.id = k)) = 0 := by
        rw [List.countP_eq_zero]
        intro q hq
        have := h5 q hq
        simp only [decide_eq_true_eq] at ha ⊢
        omega
      omega
    · exact ih h6

/-! ## C35 -/

/-- **C35** The requests of client `n` the server starts (id, action and serializer of each) are the requests `n` sent, in the order
they were sent; only messages lost on the way are missing. -/
theorem C35_in_order {K : Codec} {addr : String} {tys : List Ty} {self : Val} {sers : Bytes → Ser} {es : List SEv}
    (hf : ∀ e ∈ es, ∀ H, e.heap? = some H → Fits K H) (n : Bytes) :
    (started n ((Sys.init (Srv.init addr tys self) sers).outs K es)).Sublist
      (((Sys.init (Srv.init addr tys self) sers).asked K es n).map Asked.brief) := by
  obtain ⟨tk, A', h1, _, h3, _⟩ := up_fifo (n := n) (s := Sys.init (Srv.init addr tys self) sers) (A := []) hf rfl
  rw [h1]
  have := (List.sublist_append_left tk A').trans h3
  exact (by simpa using this : tk.Sublist _).map _

/-- **C35** Unless messages of `n` are lost, there are no gaps: the sent requests are the started ones followed by those
waiting in the server's socket. -/
theorem C35_no_gaps {K : Codec} {addr : String} {tys : List Ty} {self : Val} {sers : Bytes → Ser} {es : List SEv}
    (hf : ∀ e ∈ es, ∀ H, e.heap? = some H → Fits K H) (n : Bytes) (hl : ∀ i, SEv.loseUp n i ∉ es) :
    ∃ waiting : List Asked,
      ((Sys.init (Srv.init addr tys self) sers).asked K es n).map Asked.brief =
        started n ((Sys.init (Srv.init addr tys self) sers).outs K es) ++ waiting.map Asked.brief ∧
      ((Sys.init (Srv.init addr tys self) sers).run K es).up n = waiting.map (Asked.parts K) := by
  obtain ⟨tk, A', h1, h2, _, h4⟩ := up_fifo (n := n) (s := Sys.init (Srv.init addr tys self) sers) (A := []) hf rfl
  refine ⟨A', ?_, h2⟩
  rw [h1, ← List.map_append, h4 hl]; rfl

end Verif
