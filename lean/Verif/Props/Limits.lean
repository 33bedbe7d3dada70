import Verif.Proof.Limits
import Verif.Proof.Registry
/-!
# Property C131: any number of requests may be pending
-/
namespace Verif

variable {K : Codec} {addr : String} {tys : List Ty} {self : Val} {sers : Bytes → Ser} {cap : Nat}

/-- **C131** With limited queues nothing happens that does not happen in some run with unlimited queues in which the same is done and messages for clients
are lost. So all that holds of a system that may lose messages (C34, C35) holds with limited queues. -/
theorem C131_only_loses (K : Codec) (cap : Nat) (srv : Srv) (sers : Bytes → Ser) (es : List SEv) :
    ∃ es' : List SEv, (Sys.init srv sers).runCap K cap es = (Sys.init srv sers).run K es' ∧
      es'.filter (fun e => !e.losesDown) = es.filter (fun e => !e.losesDown) :=
  runCap_refines K cap es _ (by simp [Sys.init])

/-- **C131 (partial)** As long as no client has more replies outstanding than fit its queue (counting the news of the server's end, if there is any), limited
queues change nothing. What is missing: this for any number of requests, see `C131_fails`. -/
theorem C131_enough_partial : ∀ {es : List SEv}, (∀ e ∈ es, ∀ H, e.heap? = some H → Fits K H) →
    Moderate K cap (Sys.init (Srv.init addr tys self) sers) es →
    (Sys.init (Srv.init addr tys self) sers).runCap K cap es = (Sys.init (Srv.init addr tys self) sers).run K es := by
  intro es
  induction es using snoc_induction with
  | h0 => intro _ _; rfl
  | hs es e ih =>
    intro hf hm
    have h1 := ih (fun e he => hf e (List.mem_append_left _ he)) (fun a b hab n => hm a (b ++ [e]) (by rw [hab, List.append_assoc]) n)
    rw [runCap_append, sys_run_append, ← h1]
    have hwf0 : (Sys.init (Srv.init addr tys self) sers).srv.clients.WF := by simp [Sys.init, Srv.init, Dict.WF]
    have hdown : ∀ n, (((Sys.init (Srv.init addr tys self) sers).runCap K cap es).step K e |>.down n).length ≤ cap := by
      intro n
      obtain ⟨hwf, A, hA, hb⟩ := run_balance (cap := cap) (n := n) (s := Sys.init (Srv.init addr tys self) sers) (A := [])
        (fun e he => hf e (List.mem_append_left _ he)) hwf0 rfl
      obtain ⟨A', hA', hb'⟩ := sys_step_balance (n := n) (hf e (List.mem_append_right _ List.mem_cons_self)) hwf hA
      have hm' := hm (es ++ [e]) [] (by simp) n
      rw [readCount_append, wantCount_append, runCap_append] at hm'
      have hr : ((Sys.init (Srv.init addr tys self) sers).runCap K cap es).readCount K cap n [e] =
          readsIn (((Sys.init (Srv.init addr tys self) sers).runCap K cap es).cliEvs n e) := by rw [readCount_cons]; rfl
      have hw : ((Sys.init (Srv.init addr tys self) sers).runCap K cap es).wantCount K cap n [e] =
          wantsReply ((((Sys.init (Srv.init addr tys self) sers).runCap K cap es).cli n).asked K
            (((Sys.init (Srv.init addr tys self) sers).runCap K cap es).cliEvs n e)) := by rw [wantCount_cons]; rfl
      rw [hr, hw] at hm'
      have hsrv : (((Sys.init (Srv.init addr tys self) sers).runCap K cap es).runCap K cap [e]).srv =
        (((Sys.init (Srv.init addr tys self) sers).runCap K cap es).step K e).srv := rfl
      rw [hsrv] at hm'
      have hi : (Sys.init (Srv.init addr tys self) sers).srv.openFor n = 0 ∧ ((Sys.init (Srv.init addr tys self) sers).down n).length = 0 ∧
        (!(Sys.init (Srv.init addr tys self) sers).srv.closed).toNat = 1 ∧ wantsReply [] = 0 := ⟨rfl, rfl, rfl, rfl⟩
      rw [hi.1, hi.2.1, hi.2.2.1, hi.2.2.2] at hb
      have hnot : ∀ b : Bool, (!b).toNat + b.toNat = 1 := by decide
      have := hnot (((Sys.init (Srv.init addr tys self) sers).runCap K cap es).step K e).srv.closed
      omega
    show (((Sys.init (Srv.init addr tys self) sers).runCap K cap es).step K e).capped cap = _
    rw [Sys.capped]
    show _ = ((Sys.init (Srv.init addr tys self) sers).runCap K cap es).step K e
    have : (fun n => ((((Sys.init (Srv.init addr tys self) sers).runCap K cap es).step K e).down n).take cap) =
        (((Sys.init (Srv.init addr tys self) sers).runCap K cap es).step K e).down := by
      funext n; exact List.take_of_length_le (hdown n)
    rw [this]

/-- **C131** Once the server has read all requests of a client and works on none of them, the client gets at most as many replies as fit the queue (and the news of the
server's end) beyond those it has read, whatever happens afterwards, unless it makes new requests. -/
theorem C131_at_most {es es2 : List SEv} (hf : ∀ e ∈ es ++ es2, ∀ H, e.heap? = some H → Fits K H) {n : Bytes}
    (hup : ((Sys.init (Srv.init addr tys self) sers).runCap K cap es).up n = [])
    (hst : ∀ f ∈ ((Sys.init (Srv.init addr tys self) sers).runCap K cap es).srv.stack, f.caller ≠ n)
    (hno : ∀ E t a o rt sy, SEv.request n E t a o rt sy ∉ es2) {ks : List Nat} (hks : ks.Nodup)
    (ha : ∀ k ∈ ks, ∃ f, (((Sys.init (Srv.init addr tys self) sers).runCap K cap (es ++ es2)).cli n).fut k = some f ∧ f.answered) :
    ks.length ≤ (Sys.init (Srv.init addr tys self) sers).readCount K cap n es + cap + 1 := by
  obtain ⟨ks', _, h2, h3⟩ := answered_count (s := Sys.init (Srv.init addr tys self) sers) (Cli.inv_init n (sers n)) hks ha
  have hnil : ks' = [] := by
    cases ks' with
    | nil => rfl
    | cons k l =>
      obtain ⟨f, hf, _⟩ := h2 k List.mem_cons_self
      simp [Cli.fut, Sys.init, Cli.init] at hf
  subst hnil
  rw [readCount_append] at h3
  have hwf0 : (Sys.init (Srv.init addr tys self) sers).srv.clients.WF := by simp [Sys.init, Srv.init, Dict.WF]
  have hwf := (run_balance (cap := cap) (n := n) (s := Sys.init (Srv.init addr tys self) sers) (A := [])
        (fun e he => hf e (List.mem_append_left _ he)) hwf0 rfl).1
  have hd := runCap_down K cap n es (Sys.init (Srv.init addr tys self) sers) (by simp [Sys.init])
  generalize (Sys.init (Srv.init addr tys self) sers).runCap K cap es = s at *
  obtain ⟨_, A', _, h4⟩ := run_balance (cap := cap) (n := n) (s := s) (A := []) (fun e he => hf e (List.mem_append_right _ he)) hwf hup
  rw [wantCount_none K cap n es2 s hno] at h4
  have ho : s.srv.openFor n = 0 := by
    rw [Srv.openFor, List.countP_eq_zero]
    intro f hf
    simp [hst f hf]
  have hb : (!s.srv.closed).toNat ≤ 1 := by cases s.srv.closed <;> simp
  have hw : wantsReply [] = 0 := rfl
  simp only [List.length_nil] at h3
  omega

namespace Ex

/-- B makes `m` requests without waiting for their results, then the server carries them out. -/
def flood (m : Nat) : List SEv := List.replicate m (req nB pingReq "auto" "async") ++ List.replicate m (.serve nB heap2)

/-- pings in the format of B -/
def IsPing (q : Asked) : Prop := q.action = "ping" ∧ q.ser = .json ∧ q.payload = none

/-- B has made `i` requests that are under way, nothing else has happened -/
structure Asking (i : Nat) (s : Sys) : Prop where
  srv : s.srv = Ex.srv
  conn : (s.cli nB).disconnected = false
  sock : (s.cli nB).sockOpen = true
  ser : (s.cli nB).ser = .json
  next : (s.cli nB).nextId = i
  pend : ∀ k < i, (s.cli nB).fut k = some .pending
  up : ∃ A : List Asked, s.up nB = A.map (Asked.parts codec2) ∧ A.length = i ∧ ∀ q ∈ A, IsPing q

theorem asking_step {i : Nat} {s : Sys} (h : Asking i s) (cap : Nat) : Asking (i + 1) (s.stepCap codec2 cap (req nB pingReq "auto" "async")) := by
  have hs : (s.cli nB).send codec2 csend Refs.init "ping" none "auto" "async" =
      (Refs.init, { s.cli nB with nextId := i + 1, table := (s.cli nB).table.set i (decide ("ping" = "close")), futs := (s.cli nB).futs.set i .pending },
        some (Asked.parts codec2 ⟨i, "ping", "auto", .json, none⟩), .ok (.future i)) := by
    unfold Cli.send
    simp only [h.conn, h.sock, h.ser, h.next, Bool.false_eq_true, if_false, show ¬ ("async" = "off") by decide, Bool.true_eq_false, if_true, Nat.add_sub_cancel]
    rfl
  have hcli : ((s.stepCap codec2 cap (req nB pingReq "auto" "async")).cli nB) =
      { s.cli nB with nextId := i + 1, table := (s.cli nB).table.set i (decide ("ping" = "close")), futs := (s.cli nB).futs.set i .pending } := by
    show upd s.cli nB (((s.cli nB).step codec2 (.send csend Refs.init "ping" none "auto" "async")).1) nB = _
    simp only [upd, if_true, Cli.step, hs]
  have hup : (s.stepCap codec2 cap (req nB pingReq "auto" "async")).up nB = s.up nB ++ [Asked.parts codec2 ⟨i, "ping", "auto", .json, none⟩] := by
    show upd s.up nB (s.up nB ++ transmitted (((s.cli nB).step codec2 (.send csend Refs.init "ping" none "auto" "async")).2)) nB = _
    simp only [upd, if_true, Cli.step, hs]
    rfl
  refine ⟨h.srv, ?_, ?_, ?_, ?_, ?_, ?_⟩
  · rw [hcli]; exact h.conn
  · rw [hcli]; exact h.sock
  · rw [hcli]; exact h.ser
  · rw [hcli]
  · intro k hk
    rw [hcli]
    simp only [Cli.fut, Dict.get?_set]
    by_cases hki : k = i
    · simp [hki]
    · have := h.pend k (by omega)
      simp only [Cli.fut] at this
      rw [if_neg (Ne.symm hki)]; exact this
  · obtain ⟨A, h1, h2, h3⟩ := h.up
    refine ⟨A ++ [⟨i, "ping", "auto", .json, none⟩], by rw [hup, h1, List.map_append]; rfl, by simp [h2], ?_⟩
    intro q hq
    rcases List.mem_append.1 hq with h | h
    · exact h3 q h
    · simp only [List.mem_cons, List.not_mem_nil, or_false] at h
      subst h
      exact ⟨rfl, rfl, rfl⟩

theorem asking_run (cap : Nat) : ∀ (m : Nat) {i : Nat} {s : Sys}, Asking i s →
    Asking (i + m) (s.runCap codec2 cap (List.replicate m (req nB pingReq "auto" "async")))
  | 0, _, _, h => h
  | m + 1, i, s, h => by
    have := asking_run cap m (asking_step h cap)
    rw [show i + (m + 1) = i + 1 + m by omega]
    exact this

/-- `j` pings are left, the server works on nothing -/
structure Serves (i j : Nat) (s : Sys) : Prop where
  healthy : Healthy heap2.utf8 s.srv
  stack : s.srv.stack = []
  pend : ∀ k < i, (s.cli nB).fut k = some .pending
  up : ∃ A : List Asked, s.up nB = A.map (Asked.parts codec2) ∧ A.length = j ∧ ∀ q ∈ A, IsPing q

theorem ping_stack {s : Srv} {q : Asked} (hq : IsPing q) (hs : s.stack = []) (hd : s.closed = false) (ha : s.dead = false) (ho : s.sockOpen = true) :
    (s.step (.recv heap2 (nB :: q.parts codec2))).1.stack = [] := by
  obtain ⟨h1, h2, h3⟩ := hq
  have hu : heap2.utf8 nB = some "B" := fits2.text "B"
  simp only [Srv.step, hd, ha, ho, Bool.or_self, Bool.false_eq_true, Bool.true_eq_false, if_false, readOne_parts fits2, h1, h2, h3]
  unfold Srv.process
  simp only [serOf_name, hu, Option.map_none, Option.getD_none, if_true]
  simp only [Srv.action]
  rw [finish_stack119]
  exact hs

theorem serves_step {i j : Nat} {s : Sys} (h : Serves i (j + 1) s) (cap : Nat) : Serves i j (s.stepCap codec2 cap (.serve nB heap2)) := by
  obtain ⟨A, h1, h2, h3⟩ := h.up
  cases A with
  | nil => simp at h2
  | cons q A =>
    simp only [List.length_cons, Nat.add_right_cancel_iff] at h2
    have ht : s.srv.takes = true := by simp [Srv.takes, h.healthy.alive, h.healthy.isOpen, h.healthy.sock]
    have hq := h3 q List.mem_cons_self
    have hstep : s.stepCap codec2 cap (.serve nB heap2) =
        (({ s with up := upd s.up nB (A.map (Asked.parts codec2)) } : Sys).server (.recv heap2 (nB :: q.parts codec2))).capped cap := by
      rw [Sys.stepCap, Sys.step, h1]
      simp only [List.map_cons, ht, if_true]
    have htame : TameEv lib heap2.utf8 (.recv heap2 (nB :: q.parts codec2)) := by
      refine ⟨rfl, rfl, rfl, ?_⟩
      rintro H parts he
      simp only [Ev.recv.injEq] at he
      obtain ⟨rfl, rfl⟩ := he
      refine ⟨⟨_, _, readOne_parts fits2 nB q, by simp [serOf_name], ?_⟩, ?_⟩
      · rw [show heap2.utf8 nB = some "B" from fits2.text "B"]; simp
      · rintro ⟨c, m, h4, h5⟩
        rw [readOne_parts fits2 nB q] at h4
        simp only [Except.ok.injEq, Prod.mk.injEq] at h4
        obtain ⟨rfl, rfl⟩ := h4
        simp only at h5
        rw [hq.1] at h5
        exact absurd h5 (by decide)
    rw [hstep]
    refine ⟨(step_tame laws h.healthy htame).1, ping_stack hq h.stack h.healthy.isOpen h.healthy.alive h.healthy.sock, h.pend, A, ?_, h2, fun q hq => h3 q (List.mem_cons_of_mem _ hq)⟩
    simp [Sys.capped, Sys.server, upd]

theorem serves_run (cap : Nat) : ∀ (j : Nat) {i : Nat} {s : Sys}, Serves i j s → Serves i 0 (s.runCap codec2 cap (List.replicate j (.serve nB heap2)))
  | 0, _, _, h => h
  | j + 1, _, _, h => serves_run cap j (serves_step h cap)

theorem flood_run (cap m : Nat) : Serves m 0 (sys.runCap codec2 cap (flood m)) := by
  rw [flood, runCap_append]
  have h0 : Asking 0 sys := ⟨rfl, rfl, rfl, by simp only [sys, Sys.init, Cli.init]; decide +kernel, rfl, by intro k hk; omega, [], rfl, rfl, by simp⟩
  have h1 := asking_run cap m h0
  rw [Nat.zero_add] at h1
  refine serves_run cap m ⟨?_, ?_, h1.pend, h1.up⟩
  · rw [h1.srv]; exact healthy_init _ _ _ _ (fun ty h => h)
  · rw [h1.srv]; rfl

end Ex

/-- **C131** However long the queues are: a client that makes two requests more than fit its queue before it reads the replies has a future that never gets its outcome, though no
connection broke, the server serves, has carried out all of the requests and works on none, and the client may read whatever comes. -/
theorem C131_fails (cap : Nat) : ∃ es : List SEv,
    (∀ e ∈ es, ∀ n i, e ≠ .loseUp n i ∧ e ≠ .loseDown n i) ∧
    (Ex.sys.runCap Ex.codec2 cap es).srv.Serving ∧ (Ex.sys.runCap Ex.codec2 cap es).srv.stack = [] ∧ (Ex.sys.runCap Ex.codec2 cap es).up Ex.nB = [] ∧
    (∀ k < cap + 2, ((Ex.sys.runCap Ex.codec2 cap es).cli Ex.nB).fut k = some .pending) ∧
    ∀ es2 : List SEv, (∀ e ∈ es2, ∀ H, e.heap? = some H → Fits Ex.codec2 H) → (∀ E t a o rt sy, SEv.request Ex.nB E t a o rt sy ∉ es2) →
      ∃ k < cap + 2, ¬ ∃ f, ((Ex.sys.runCap Ex.codec2 cap (es ++ es2)).cli Ex.nB).fut k = some f ∧ f.answered := by
  have h := Ex.flood_run cap (cap + 2)
  obtain ⟨A, h1, h2, -⟩ := h.up
  have hA : A = [] := List.length_eq_zero_iff.1 h2
  have hup : (Ex.sys.runCap Ex.codec2 cap (Ex.flood (cap + 2))).up Ex.nB = [] := by rw [h1, hA]; rfl
  refine ⟨Ex.flood (cap + 2), ?_, ⟨h.healthy.isOpen, h.healthy.alive, h.healthy.sock⟩, h.stack, hup, h.pend, ?_⟩
  · intro e he n i
    simp only [Ex.flood, List.mem_append, List.mem_replicate] at he
    rcases he with ⟨-, rfl⟩ | ⟨-, rfl⟩ <;> exact ⟨nofun, nofun⟩
  · intro es2 hf hno
    apply Classical.byContradiction
    intro hall
    have hrd : Ex.sys.readCount Ex.codec2 cap Ex.nB (Ex.flood (cap + 2)) = 0 := by
      have : ∀ (es : List SEv) (s : Sys), (∀ e ∈ es, (∃ E t a o rt sy, e = .request Ex.nB E t a o rt sy) ∨ ∃ H, e = .serve Ex.nB H) →
          s.readCount Ex.codec2 cap Ex.nB es = 0 := by
        intro es
        induction es with
        | nil => intro s _; rfl
        | cons e es ih =>
          intro s h
          rw [readCount_cons, ih _ (fun e he => h e (List.mem_cons_of_mem _ he))]
          rcases h e List.mem_cons_self with ⟨E, t, a, o, rt, sy, rfl⟩ | ⟨H, rfl⟩
          · simp [Sys.cliEvs, readsIn]
          · simp [Sys.cliEvs, readsIn]
      apply this
      intro e he
      simp only [Ex.flood, List.mem_append, List.mem_replicate] at he
      rcases he with ⟨-, rfl⟩ | ⟨-, rfl⟩
      · exact .inl ⟨_, _, _, _, _, _, rfl⟩
      · exact .inr ⟨_, rfl⟩
    have := C131_at_most (K := Ex.codec2) (cap := cap) (es := Ex.flood (cap + 2)) (es2 := es2) (n := Ex.nB) (ks := List.range (cap + 2))
      (addr := "tcp://a:1") (tys := []) (self := Ex.self) (sers := Ex.sers2)
      (by
        intro e he H hH
        rcases List.mem_append.1 he with he | he
        · simp only [Ex.flood, List.mem_append, List.mem_replicate] at he
          rcases he with ⟨-, rfl⟩ | ⟨-, rfl⟩
          · cases hH
          · simp only [SEv.heap?, Option.some.injEq] at hH; subst hH; exact Ex.fits2
        · exact hf e he H hH)
      hup (by
        intro f hf
        have hs : (Ex.sys.runCap Ex.codec2 cap (Ex.flood (cap + 2))).srv.stack = [] := h.stack
        rw [show (Sys.init (Srv.init "tcp://a:1" [] Ex.self) Ex.sers2) = Ex.sys from rfl, hs] at hf
        cases hf)
      hno List.nodup_range (by
        intro k hk
        apply Classical.byContradiction
        intro hn
        exact hall ⟨k, List.mem_range.1 hk, hn⟩)
    rw [show (Sys.init (Srv.init "tcp://a:1" [] Ex.self) Ex.sers2) = Ex.sys from rfl, hrd, List.length_range] at this
    omega

/-! ## The circumstances can be met -/
namespace Ex

/-- With room for two messages, three requests at once lose a reply: only two of them are ever read, ... -/
example : (sys.runCap codec2 2 (flood 3 ++ [rd nB, rd nB, rd nB]) |>.cli nB |>.futs).map (fun p => match p.2 with | .pending => false | _ => true) = [true, true, false] := by decide +kernel
/-- ... which does not happen without the limit, ... -/
example : (sys.run codec2 (flood 3 ++ [rd nB, rd nB, rd nB]) |>.cli nB |>.futs).map (fun p => match p.2 with | .pending => false | _ => true) = [true, true, true] := by decide +kernel
/-- ... nor if the client reads in between. -/
def patient : List SEv := [req nB pingReq "auto" "async", req nB pingReq "auto" "async", .serve nB heap2, .serve nB heap2, rd nB,
  req nB pingReq "auto" "async", .serve nB heap2, rd nB, rd nB]
example : (sys.runCap codec2 2 patient |>.cli nB |>.futs).map (fun p => match p.2 with | .pending => false | _ => true) = [true, true, true] ∧
    sys.readCount codec2 2 nB patient = 3 ∧ sys.wantCount codec2 2 nB patient = 3 := by decide +kernel

theorem patient_counts : ∀ i ∈ List.range 10, (sys.runCap codec2 2 (patient.take i)).srv.closed = false ∧
    sys.wantCount codec2 2 nB (patient.take i) ≤ sys.readCount codec2 2 nB (patient.take i) + 2 := by decide +kernel

/-- C131: this run is moderate. -/
theorem patient_moderate : Moderate codec2 2 sys patient := by
  intro a b hab n
  have ha : a = patient.take a.length := by rw [hab, List.take_left']; rfl
  have hl : a.length ∈ List.range 10 := by
    have := congrArg List.length hab
    rw [List.length_append] at this
    rw [List.mem_range]
    simp only [patient, List.length_cons, List.length_nil] at this
    omega
  obtain ⟨h1, h2⟩ := patient_counts _ hl
  rw [ha, h1]
  by_cases hn : n = nB
  · subst hn; simpa using h2
  · rw [wantCount_none]
    · simp
    · intro E t ac o rt sy h
      have := List.mem_of_mem_take h
      simp only [patient, req, rd, List.mem_cons, SEv.request.injEq, reduceCtorEq, List.not_mem_nil, or_false, false_or] at this
      rcases this with h | h | h <;> exact hn h.1

end Ex

namespace Ex

/-! ## The theorems on these cases -/

theorem patient_fits : ∀ e ∈ patient, ∀ H, e.heap? = some H → Fits codec2 H := by
  intro e he H hH
  have : H = heap2 := by
    revert e H
    simp [patient, req, rd, SEv.heap?]
  rw [this]; exact fits2

example : sys.runCap codec2 2 patient = sys.run codec2 patient := C131_enough_partial patient_fits patient_moderate

/-- The three requests of `flood 3` are served; two of them are answered. -/
example : [0, 1].length ≤ sys.readCount codec2 2 nB (flood 3) + 2 + 1 := by
  refine C131_at_most (es2 := [rd nB, rd nB, rd nB]) ?_ ?_ ?_ ?_ (by decide) ?_
  · intro e he H hH
    have : H = heap2 := by
      revert e H
      simp [flood, req, rd, SEv.heap?]
    rw [this]; exact fits2
  · decide +kernel
  · have : (sys.runCap codec2 2 (flood 3)).srv.stack.length = 0 := by decide +kernel
    intro f hf
    have := List.length_pos_of_mem hf
    exact absurd this (by show ¬ 0 < (sys.runCap codec2 2 (flood 3)).srv.stack.length; omega)
  · simp [rd]
  · have h : ∀ k ∈ [0, 1], (match ((sys.runCap codec2 2 (flood 3 ++ [rd nB, rd nB, rd nB])).cli nB).fut k with | some (.value _) => true | _ => false) = true := by decide +kernel
    intro k hk
    have h := h k hk
    split at h
    · next v hv => exact ⟨_, hv, trivial⟩
    · cases h

end Ex

end Verif
