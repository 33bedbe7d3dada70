import Verif.Proof.SystemClose
/-!
# Properties C36 and C37: the end of a server
-/
namespace Verif

/-- The server was closed: a close request was carried out and answered, and the socket is closed. -/
def Sys.Ended (s : Sys) : Prop := s.srv.closed = true ∧ s.srv.sockOpen = false

/-- Client `n` has read all messages sent to it. -/
structure ReadAll (K : Codec) (srv : Srv) (sers : Bytes → Ser) (es : List SEv) (n : Bytes) : Prop where
  /-- the server knows it -/
  known : ((Sys.init srv sers).run K es).srv.clients.get? n ≠ none
  /-- nothing is left to read, and nothing was lost -/
  none_left : ((Sys.init srv sers).run K es).down n = []
  none_lost : ∀ i, SEv.loseDown n i ∉ es
  /-- its socket is open -/
  socket : .closeClient n ∉ es

/-- If client `n` asked for the close, it asked for a reply by value and still holds its future. -/
def ClosesWithReply (K : Codec) (srv : Srv) (sers : Bytes → Ser) (es : List SEv) (n : Bytes) : Prop :=
  ∀ q ∈ (Sys.init srv sers).asked K es n, q.action = "close" →
    q.returnType ≠ "proxy" ∧ ∃ k : Nat, q.id = k ∧ (((Sys.init srv sers).run K es).cli n).fut k ≠ none

section
variable {K : Codec} {L : Lib} {idOf : Obj → Nat} {addr : String} {tys : List Ty} {self : Val} {sers : Bytes → Ser} {es : List SEv}

theorem bool_sendable (ser : Ser) (R : RecvEnv) : ser.Sendable R (.bool true) := by cases ser <;> simp [Ser.Sendable, Sendable, JSendable]
theorem bool_arrives {ser : Ser} {L tys P v} (h : ser.Arrives L tys P (.bool true) v) : v = .bool true := by
  cases ser
  · simpa [Ser.Arrives, Arrives] using h
  · simpa [Ser.Arrives, JArrives] using h

/-- the reply True is read as it is -/
theorem replyOf_true {H : Heap} {s : Srv} {c rt k ser w t} {R : RecvEnv} (hr : ReplyOf H c s rt (.ok (.bool true)) k ser w t)
    (hlink : Link L (s.sendEnv H) R) (hlive : LiveTable H s.refs) (hrt : rt ≠ "proxy") : ser.loads R w = .ok (replyDict k (.bool true) .none) := by
  have hL : (s.sendEnv H).lib.Laws := hlink.sender ▸ hlink.laws
  have hty : Ty.bool ∈ s.tys := hlink.types _ (by decide)
  have hv : SentByValue s.tys rt (.bool true) := ⟨hrt, fun _ => by simp [Val.isinstance, Val.types, hty]⟩
  rcases hr with ⟨v, hv', hd⟩ | ⟨x, t1, _, hd, ⟨hx, _⟩ | ⟨v, hv', hd'⟩⟩
  · simp only [Except.ok.injEq] at hv'; subst hv'
    rw [convert_byValue hv] at hd
    obtain ⟨h0, hr0, ha0⟩ := hlive.ok s
    obtain ⟨rv, ev, h1, h2, h3⟩ := dumps_arrives hlink hr0 ha0 (bool_sendable ser R) (none_sendable ser R) hd
    have := bool_arrives h2
    subst this
    obtain ⟨rv', ev', h4, h5⟩ := loads_reply hL (hlink.receiver.trans hlink.sender.symm) (hlink.types _ (by decide)) hd h1
    rw [h1]
    simp only [replyDict, Val.dict.injEq, List.cons.injEq, Prod.mk.injEq, true_and, and_true] at h4
    rw [h4.2, h5 rfl]
  · simp at hx
  · exfalso
    simp only [Except.ok.injEq] at hv'; subst hv'
    rw [convert_byValue hv] at hd'
    obtain ⟨t', w', h⟩ := serializable_dumps hL hlink.types (by simp [Srv.sendEnv]) (ser := ser) (v := .bool true)
      (by cases ser <;> simp [Ser.Serializable, Packable, JPackable, Val.jdepth, Val.depth]) s.refs k
    rw [h] at hd'; simp at hd'

/-- the outcome of a request read is determined -/
theorem Completes.det {s : Srv} {H parts c k rt r s1 k' rt' r' s1'} (h : Completes s (.recv H parts) c k rt r s1)
    (h' : Completes s (.recv H parts) c k' rt' r' s1') : r = r' ∧ s1 = s1' ∧ rt = rt' := by
  rcases h with ⟨o, a, st, b, ser, opts, h1, h2, h3, h4, h5, h6⟩ | ⟨H1, p1, m, x, ser, he, h2, h1, hk, hrt, h3, h5, h6, h7⟩ <;>
  rcases h' with ⟨o', a', st', b', ser', opts', g1, g2, g3, g4, g5, g6⟩ | ⟨H2, p2, m', x', ser', he', g2, g1, gk, grt, g3, g5, g6, g7⟩
  · rw [h1] at g1
    simp only [Except.ok.injEq, Prod.mk.injEq, true_and, Msg.mk.injEq] at g1
    obtain ⟨rfl, rfl, rfl, rfl, rfl⟩ := g1
    rw [h3] at g3; simp only [Option.some.injEq] at g3; subst g3
    rw [h5] at g5; simp only [Except.ok.injEq] at g5; subst g5
    rw [h6] at g6; simp only [Started.finished.injEq] at g6
    exact ⟨g6.2.2, g6.1, rfl⟩
  · simp only [Ev.recv.injEq] at he'
    obtain ⟨rfl, rfl⟩ := he'
    rw [h1] at g1
    simp only [Except.ok.injEq, Prod.mk.injEq, true_and] at g1
    subst g1
    rw [h3] at g3; simp only [Option.some.injEq] at g3; subst g3
    have : Msg.payload H s ⟨k, a, rt, st, b⟩ ser = .ok opts := h5
    rw [g5] at this; simp at this
  · simp only [Ev.recv.injEq] at he
    obtain ⟨rfl, rfl⟩ := he
    rw [h1] at g1
    simp only [Except.ok.injEq, Prod.mk.injEq, true_and] at g1
    subst g1
    rw [h3] at g3; simp only [Option.some.injEq] at g3; subst g3
    have : Msg.payload H s ⟨k', a', rt', st', b'⟩ ser = .ok opts' := g5
    rw [h5] at this; simp at this
  · simp only [Ev.recv.injEq] at he he'
    obtain ⟨rfl, rfl⟩ := he
    obtain ⟨rfl, rfl⟩ := he'
    rw [h1] at g1
    simp only [Except.ok.injEq, Prod.mk.injEq, true_and] at g1
    subst g1
    rw [h3] at g3; simp only [Option.some.injEq] at g3; subst g3
    rw [h5] at g5; simp only [Except.error.injEq] at g5; subst g5
    rw [h6, h7, g6, g7, ← hrt, ← grt]
    exact ⟨rfl, rfl, rfl⟩

/-- once the server was closed and client `n` has read all messages, `disconnected()` is true -/
theorem ended_disconnected (W : World K L idOf (Srv.init addr tys self) sers es)
    (hend : ((Sys.init (Srv.init addr tys self) sers).run K es).Ended) {n : Bytes} (hall : ReadAll K (Srv.init addr tys self) sers es n)
    (hclose : ClosesWithReply K (Srv.init addr tys self) sers es n) :
    (((Sys.init (Srv.init addr tys self) sers).run K es).cli n).disconnected = true := by
  obtain ⟨pre, H, n0, q, post, s1, hhist, h1, h2, h3, hq, hqa, hown, hcomp, hothers, hown2⟩ := the_end W hend.1 hend.2
  by_cases hn : n = n0
  · subst hn
    obtain ⟨hrt, k, hk, hf⟩ := hclose q hq hqa
    obtain ⟨ser, w, hs⟩ := hown2 (by omega)
    rw [hk] at hown
    obtain ⟨rt, r, s1', _, hcomp', hrep⟩ := step_sends_owner hown hs
    obtain ⟨rfl, rfl, rfl⟩ := hcomp.det hcomp'
    obtain ⟨_, _, _, _, hlink, hlive, _⟩ := reply_of_completes W hhist hs hcomp
    have hread : ∀ R, Reads L addr R → ser.loads R w = .ok (replyDict k (.bool true) .none) := fun R hR => replyOf_true hrep (hlink R hR) hlive hrt
    obtain ⟨a, P, b, d, q', hab, hR, hso, hi, hrd, hisr, _, hq', hqk', hfin⟩ :=
      reply_finds W hhist h1 h2 hall.none_left hall.none_lost hall.socket hown hs (fun P _ hR => ⟨_, hread _ hR⟩) hf
    have := asked_unique hq hq' (by omega) (by omega)
    subst this
    rw [hqa] at hfin
    rcases hfin with htab | ⟨h, _⟩
    · rw [sys_run_cli, hab, cli_init_eq, run_append_cli]
      refine disconnected_run b (tells_disconnects (K := K) hso ⟨d, hrd, .inr ⟨k, hisr, ?_, htab⟩⟩)
      obtain ⟨hser, _⟩ := at_reading W hhist h1 h2 hall.none_left hall.none_lost hall.socket hown hs
      have h5 := hread _ hR
      rw [Cli.reads, (run_const K _ _).2.1] at hrd
      subst hser
      rw [show (Cli.init n (sers n)).ser = sers n from rfl, h5] at hrd
      simp only [replyDict, Except.ok.injEq, Val.dict.injEq] at hrd
      subst hrd
      simp [Says, lookupStr]
    · exact absurd rfl h
  · have hinv := SInv.init (K := K) (init_clients addr tys self) sers
    have hfifo := down_fifo (n := n) hinv W.fits hall.none_lost
    rw [hall.none_left, show (Sys.init (Srv.init addr tys self) sers).down n = [] from rfl] at hfifo
    have hs := hothers n hn hall.known
    have hmem : disconnectWire ∈ recvs ((Sys.init (Srv.init addr tys self) sers).cliHist K n es) := by
      simp only [List.map_nil, List.nil_append, List.append_nil] at hfifo
      rw [← hfifo, List.mem_map]
      exact ⟨(sers n, disconnectWire), mem_sentTo.2 (by rw [outs_split hhist]; simp [hs]), rfl⟩
    obtain ⟨P, hP⟩ := mem_recvs.1 hmem
    obtain ⟨a, b, hab⟩ := List.append_of_mem hP
    rw [sys_run_cli, hab, run_append_cli]
    refine disconnected_run b ?_
    refine tells_disconnects (K := K) ?_ ⟨_, by rw [Cli.reads]; exact loads_disconnect _ _, .inl (by simp [IsDisconnect, lookupStr])⟩
    have := cliHist_close (K := K) (s := Sys.init (Srv.init addr tys self) sers) hall.socket
    rw [hab] at this
    rw [sockOpen_run (by simp at this; exact this.1)]
    rfl

/-- **C36 (partial)** After a server was closed and a client it knows has read all its messages, none of the client's futures
is pending. Missing: `hclose` asks more of a closing client than the property does: besides a reply, that it is asked for
by value and that the future is still held (without this: `C36_fails`). -/
theorem C36_no_pending_partial (W : World K L idOf (Srv.init addr tys self) sers es)
    (hend : ((Sys.init (Srv.init addr tys self) sers).run K es).Ended) {n : Bytes} (hall : ReadAll K (Srv.init addr tys self) sers es n)
    (hclose : ClosesWithReply K (Srv.init addr tys self) sers es n) (k : Nat) :
    (((Sys.init (Srv.init addr tys self) sers).run K es).cli n).fut k ≠ some .pending := by
  have hd := ended_disconnected W hend hall hclose
  rw [sys_run_cli, cli_init_eq] at hd ⊢
  intro h
  have ht := tracked_run (K := K) _ (c := Cli.init n (sers n)) (by intro k h; simp [Cli.fut, Cli.init] at h) (serverMsgs_of W n)
  have hi := run_inv (K := K) ((Sys.init (Srv.init addr tys self) sers).cliHist K n es) (Cli.inv_init n (sers n))
  obtain ⟨b, hb⟩ := ht k h
  rw [hi.disc hd] at hb
  simp at hb

/-- the future of a request the server answered is answered once the client has read its messages -/
theorem done_answered (W : World K L idOf (Srv.init addr tys self) sers es)
    (hend : ((Sys.init (Srv.init addr tys self) sers).run K es).srv.closed = true → ((Sys.init (Srv.init addr tys self) sers).run K es).srv.sockOpen = false)
    {n : Bytes} (hnl : ((Sys.init (Srv.init addr tys self) sers).run K es).down n = []) (hld : ∀ i, SEv.loseDown n i ∉ es) (hcc : .closeClient n ∉ es)
    (hread : ∀ P w, .recv P w ∈ (Sys.init (Srv.init addr tys self) sers).cliHist K n es → ∃ v, (sers n).loads P.recv w = .ok v)
    {k : Nat} {f : Fut} (hf : (((Sys.init (Srv.init addr tys self) sers).run K es).cli n).fut k = some f)
    (hd : .done n k none ∈ (Sys.init (Srv.init addr tys self) sers).outs K es) : f.answered := by
  obtain ⟨pre, e, post, hhist, hd⟩ := run_out_split hd
  obtain ⟨hown, ser, w, hs⟩ := step_done_sent (by omega) hd
  have hop : ((Srv.init addr tys self).run pre).1.sockOpen = true := by
    cases h : ((Srv.init addr tys self).run pre).1.sockOpen with
    | true => rfl
    | false =>
      have := (step_stopped h e).2 _ hs
      simp [Out.silent] at this
  have hcl : ((Srv.init addr tys self).run pre).1.closed = false := by
    cases h : ((Srv.init addr tys self).run pre).1.closed with
    | false => rfl
    | true =>
      have := hend (by rw [sys_run_srv, hhist, run_append_state]; exact (closed_run _ h).1)
      rw [sys_run_srv, hhist, run_append_state, show (Sys.init (Srv.init addr tys self) sers).srv = Srv.init addr tys self from rfl,
        (closed_run _ h).2] at this
      rw [hop] at this; simp at this
  obtain ⟨hser, _⟩ := at_reading W hhist hcl hop hnl hld hcc hown hs
  obtain ⟨a, P, b, d, q, hab, hR, hso, hi, hrd, hisr, hm, _, _, hfin⟩ := reply_finds W hhist hcl hop hnl hld hcc hown hs
    (fun P hP _ => by rw [hser]; exact hread P w hP) (by rw [hf]; simp)
  obtain ⟨f0, hf0⟩ := serverMsg_says hm hisr
  rw [sys_run_cli, hab, cli_init_eq, run_append_cli] at hf
  -- right after reading it the future is answered, or is no longer held
  have hkeep : ∀ {c : Cli}, c.Inv → ∀ (es : List CEv) {f1 : Fut}, c.fut k = some f1 → f1.answered → (c.run K es).1.fut k = some f → c.nextId > k → f.answered := by
    intro c hi es
    induction es generalizing c with
    | nil => intro f1 h1 h2 h3 _; rw [show (c.run K []).1 = c from rfl, h1] at h3; simp only [Option.some.injEq] at h3; subst h3; exact h2
    | cons e es ih =>
      intro f1 h1 h2 h3 h4
      have h5 : (c.step K e).1.nextId > k := by
        have := (asked_ids K [e] c).2.1
        rw [show (c.run K [e]).1 = (c.step K e).1 from rfl] at this
        omega
      rcases fut_step (K := K) hi e k h1 with h | ⟨_, h⟩ | ⟨h, _⟩
      · exact ih (step_inv e hi) h h2 h3 h5
      · have := fut_held (es := es) (step_inv (K := K) e hi) h5 (by
          rw [show ((c.step K e).1.run K es).1 = (c.run K (e :: es)).1 from rfl, h3]; simp)
        exact absurd h this
      · subst h; exact h2.elim
  have hlt : ((Cli.init n (sers n)).run K a).1.nextId > k := by
    rw [Cli.reads, (run_const K _ _).2.1] at hrd
    obtain ⟨q', hq', hqk'⟩ := reply_causal W hab hrd hisr
    rcases (asked_ids K a (Cli.init n (sers n))).1 q' hq' with h | ⟨_, h⟩ <;> omega
  rcases hfin with htab | ⟨_, f1, h1, h2⟩
  · have hset := C27_reply_sets_inv (K := K) hi hso hrd hisr hf0 htab
    have hn : (((Cli.init n (sers n)).run K a).1.step K (.recv P w)).1.nextId > k := by
      have := (asked_ids K [CEv.recv P w] ((Cli.init n (sers n)).run K a).1).2.1
      rw [show (((Cli.init n (sers n)).run K a).1.run K [.recv P w]).1 = (((Cli.init n (sers n)).run K a).1.step K (.recv P w)).1 from rfl] at this
      omega
    refine hkeep (step_inv (K := K) _ hi) b hset ?_ hf hn
    cases f0 with
    | pending => exact hf0.elim
    | gone => exact hf0.elim
    | value v => trivial
    | remote x y => trivial
  · exact hkeep hi (.recv P w :: b) h1 h2 hf hlt

/-- **C36 (partial)** Then the futures of exactly those requests the server had answered hold an answer (what it is: C34), and all
others raise RuntimeError. Missing: as above; and the client must be able to read its messages (C34: an answer that cannot
be decoded is lost). -/
theorem C36_answers_partial (W : World K L idOf (Srv.init addr tys self) sers es)
    (hend : ((Sys.init (Srv.init addr tys self) sers).run K es).Ended) {n : Bytes} (hall : ReadAll K (Srv.init addr tys self) sers es n)
    (hclose : ClosesWithReply K (Srv.init addr tys self) sers es n)
    (hread : ∀ P w, .recv P w ∈ (Sys.init (Srv.init addr tys self) sers).cliHist K n es → ∃ v, (sers n).loads P.recv w = .ok v)
    {k : Nat} {f : Fut} (hf : (((Sys.init (Srv.init addr tys self) sers).run K es).cli n).fut k = some f) :
    (f.answered ∧ .done n k none ∈ (Sys.init (Srv.init addr tys self) sers).outs K es) ∨
    (f = .gone ∧ .done n k none ∉ (Sys.init (Srv.init addr tys self) sers).outs K es) := by
  have hnp := C36_no_pending_partial W hend hall hclose k
  have hdone : .done n k none ∈ (Sys.init (Srv.init addr tys self) sers).outs K es → f.answered :=
    done_answered W (fun _ => hend.2) hall.none_left hall.none_lost hall.socket hread hf
  have hans : f.answered → .done n k none ∈ (Sys.init (Srv.init addr tys self) sers).outs K es := by
    intro ha
    rw [sys_run_cli] at hf
    rcases fut_origin ha (by rw [cli_init_eq]; exact Cli.inv_init _ _) hf with h | ⟨P, w, d, hrecv, hreads, hisr, _⟩
    · simp [cli_init_eq, Cli.fut, Cli.init] at h
    have hinv := SInv.init (K := K) (init_clients addr tys self) sers
    rcases read_sent hinv W.fits hrecv with h | hsend
    · simp [Sys.init] at h
    obtain ⟨pre, e, post, hhist, hmem⟩ := run_out_split hsend
    rcases reply_sent W hhist hmem with ⟨rfl, _⟩ | ⟨k', rt, r, s1, q, _, hcomp, hrep, _, _, _, hlink, hlive, _⟩
    · rw [Cli.reads, loads_disconnect] at hreads
      simp only [Except.ok.injEq, Val.dict.injEq] at hreads
      subst hreads
      exact (isReply_disconnect hisr (by simp [IsDisconnect, lookupStr])).elim
    · obtain ⟨rv, ev, d', hv, hd', _⟩ := replyOf_serverMsg hrep (hlink _ (reads_of W hrecv)) hlive hreads
      simp only [Val.dict.injEq] at hv
      subst hv
      have := isReply_replyDict hd' hisr
      subst this
      obtain ⟨_, h, _⟩ := step_one_send hcomp.owner hmem
      rw [outs_split hhist]
      simp [h]
  cases f with
  | pending => exact absurd hf hnp
  | gone => exact .inr ⟨rfl, fun h => hdone h⟩
  | value v => exact .inl ⟨trivial, hans trivial⟩
  | remote x y => exact .inl ⟨trivial, hans trivial⟩

/-! ## C37 -/

/-- **C37 (partial)** After a server was closed, every client it knows that has read its messages reports `disconnected()`,
whoever asked for the close. Missing: if the client itself asked for it, it must have asked for a reply by value and hold the
future; with sync='off' it never learns of the end (`C37_fails`). -/
theorem C37_learns_partial (W : World K L idOf (Srv.init addr tys self) sers es)
    (hend : ((Sys.init (Srv.init addr tys self) sers).run K es).Ended) {n : Bytes} (hall : ReadAll K (Srv.init addr tys self) sers es n)
    (hclose : ClosesWithReply K (Srv.init addr tys self) sers es n) :
    (((Sys.init (Srv.init addr tys self) sers).run K es).cli n).disconnected = true :=
  ended_disconnected W hend hall hclose

end

end Verif
