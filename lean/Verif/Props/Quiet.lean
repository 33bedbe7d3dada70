import Verif.Spec.Quiet
import Verif.Props.SystemCloseExample
import Verif.Props.ServerServe
import Verif.Props.Server
/-!
# Property C119: every request is answered
-/
namespace Verif

/-- what a client transmitted it was asked to send -/
theorem cli_asked_request {K : Codec} {q : Asked} : ∀ {es : List CEv} {c : Cli}, q ∈ c.asked K es →
    ∃ E t o rt sy, .send E t q.action o rt sy ∈ es
  | [], _, h => by simp [Cli.asked] at h
  | e :: es, c, h => by
    simp only [Cli.asked, List.mem_append] at h
    rcases h with h | h
    · cases e with
      | send E t a o rt sy =>
        simp only at h
        split at h
        · simp only [List.mem_cons, List.not_mem_nil, or_false] at h
          subst h
          exact ⟨E, t, o, rt, sy, List.mem_cons_self⟩
        · simp at h
      | _ => simp at h
    · obtain ⟨E, t, o, rt, sy, h⟩ := cli_asked_request h
      exact ⟨E, t, o, rt, sy, List.mem_cons_of_mem _ h⟩

theorem cliHist_request {K : Codec} {n : Bytes} {E t a o rt sy} : ∀ {es : List SEv} {s : Sys}, .send E t a o rt sy ∈ s.cliHist K n es →
    .request n E t a o rt sy ∈ es
  | [], _, h => by simp [Sys.cliHist] at h
  | e :: es, s, h => by
    simp only [Sys.cliHist, List.mem_append] at h
    rcases h with h | h
    · refine List.mem_cons.2 (.inl ?_)
      revert h
      cases e <;> simp only [Sys.cliEvs] <;> (repeat' split) <;> simp
      rename_i h1
      subst h1
      rintro rfl rfl rfl rfl rfl rfl
      exact ⟨rfl, rfl, rfl, rfl, rfl, rfl, rfl⟩
    · exact List.mem_cons_of_mem _ (cliHist_request h)

theorem sys_asked_request {K : Codec} {n : Bytes} {es : List SEv} {s : Sys} {q : Asked} (h : q ∈ s.asked K es n) :
    ∃ E t o rt sy, .request n E t q.action o rt sy ∈ es := by
  obtain ⟨E, t, o, rt, sy, h⟩ := cli_asked_request h
  exact ⟨E, t, o, rt, sy, cliHist_request h⟩

section
variable {K : Codec} {L : Lib} {idOf : Obj → Nat} {addr : String} {tys : List Ty} {self : Val} {sers : Bytes → Ser} {es : List SEv}
  {u : Bytes → Option String}

theorem undisturbed_tame (W : World K L idOf (Srv.init addr tys self) sers es) (U : UndisturbedSys u es) :
    ∀ e ∈ (Sys.init (Srv.init addr tys self) sers).srvHist K es, TameEv L u e := by
  intro e he
  obtain ⟨se, h1, h2⟩ := srvHist_heap he
  refine ⟨W.lib _ h1 _ h2, U.utf8 _ h1 _ h2, U.text _ h1 _ h2, ?_⟩
  rintro H parts rfl
  obtain ⟨n, q, rfl, h | hq⟩ := recv_asked (A := fun _ => []) W.fits (fun _ => rfl) he
  · simp at h
  obtain ⟨E, t, o, rt, sy, hr⟩ := sys_asked_request hq
  have hf := W.fits _ h1 _ h2
  have hro := readOne_parts hf n q
  refine ⟨⟨_, _, hro, by simp [serOf_name], ?_⟩, ?_⟩
  · rw [show H.utf8 = u from U.utf8 _ h1 _ h2]
    exact U.names _ _ _ _ _ _ _ hr
  · rintro ⟨c, m, h3, h4⟩
    rw [show Ev.heap (.recv H (n :: q.parts K)) = H from rfl] at hro
    rw [hro] at h3
    simp only [Except.ok.injEq, Prod.mk.injEq] at h3
    obtain ⟨rfl, rfl⟩ := h3
    exact U.noClose _ _ _ _ _ _ _ hr h4

theorem undisturbed_healthy (W : World K L idOf (Srv.init addr tys self) sers es) (U : UndisturbedSys u es) :
    Healthy u ((Sys.init (Srv.init addr tys self) sers).run K es).srv ∧
    ∀ x ∈ (Sys.init (Srv.init addr tys self) sers).outs K es, x.failure = false := by
  rw [sys_run_srv]
  exact run_tame W.laws _ _ (healthy_init u addr tys self W.types) (undisturbed_tame W U)

/-- **C119** In every run nobody disturbs, the server goes on serving. -/
theorem C119_serving (W : World K L idOf (Srv.init addr tys self) sers es) (U : UndisturbedSys u es) :
    ((Sys.init (Srv.init addr tys self) sers).run K es).srv.Serving :=
  let h := (undisturbed_healthy W U).1
  ⟨h.isOpen, h.alive, h.sock⟩

/-- **C119** and no client ever reports `disconnected()`. -/
theorem C119_connected (W : World K L idOf (Srv.init addr tys self) sers es) (U : UndisturbedSys u es) (n : Bytes) :
    (((Sys.init (Srv.init addr tys self) sers).run K es).cli n).disconnected = false := by
  cases hd : (((Sys.init (Srv.init addr tys self) sers).run K es).cli n).disconnected with
  | false => rfl
  | true =>
    rw [sys_run_cli, cli_init_eq] at hd
    obtain ⟨a, P, w, b, hab, d, hrd, h⟩ := disconnected_origin (K := K) rfl hd
    have hrecv : .recv P w ∈ (Sys.init (Srv.init addr tys self) sers).cliHist K n es := by rw [hab]; simp
    rcases h with h | ⟨k, _, _, h⟩
    · rcases read_sent (SInv.init (K := K) (init_clients addr tys self) sers) W.fits hrecv with h0 | hsend
      · simp [Sys.init] at h0
      obtain ⟨pre, e, post, hhist, hmem⟩ := run_out_split hsend
      rcases reply_sent W hhist hmem with ⟨_, h1⟩ | ⟨k, rt, r, s1, q, _, _, hrep, _, _, _, hlink, hlive, _⟩
      · have hh := (undisturbed_healthy W U).1.isOpen
        rw [sys_run_srv, hhist, run_append_state, show (Sys.init (Srv.init addr tys self) sers).srv = Srv.init addr tys self from rfl] at hh
        have := (closed_run post h1).1
        rw [show (((Srv.init addr tys self).run pre).1.run (e :: post)).1 = ((((Srv.init addr tys self).run pre).1.step e).1.run post).1 from rfl, this] at hh
        simp at hh
      · rw [Cli.reads, (run_const K _ _).2.1] at hrd
        obtain ⟨rv, ev, d', hv, hd', _⟩ := replyOf_serverMsg hrep (hlink _ (reads_of W hrecv)) hlive hrd
        simp only [Val.dict.injEq] at hv
        subst hv
        simp only [replyDict, Val.dict.injEq] at hd'
        subst hd'
        simp only [IsDisconnect, lookupStr, if_true, Option.some.injEq, Val.str.injEq] at h
        exact absurd h (by decide)
    · rcases table_asked h with h1 | ⟨q, hq, _, h2⟩
      · simp [Cli.init] at h1
      · obtain ⟨E, t, o, rt, sy, hs⟩ := cli_asked_request hq
        have : .send E t q.action o rt sy ∈ (Sys.init (Srv.init addr tys self) sers).cliHist K n es := by rw [hab]; simp [hs]
        exact absurd (by simpa using h2.symm) (U.noClose _ _ _ _ _ _ _ (cliHist_request this))

/-- **C119** As long as a future is pending there is something to do for it: its request or another of the same client waits in
the server's socket, or user code of the server is running, or a message waits in the client's socket. So when nothing
is under way every future is answered (what it reports: C34). -/
theorem C119_answered (W : World K L idOf (Srv.init addr tys self) sers es) (U : UndisturbedSys u es) {n : Bytes}
    (hlu : ∀ i, SEv.loseUp n i ∉ es) (hld : ∀ i, SEv.loseDown n i ∉ es) (hcc : .closeClient n ∉ es)
    (hread : ∀ P w, .recv P w ∈ (Sys.init (Srv.init addr tys self) sers).cliHist K n es → ∃ v, (sers n).loads P.recv w = .ok v)
    (hup : ((Sys.init (Srv.init addr tys self) sers).run K es).up n = [])
    (hst : ((Sys.init (Srv.init addr tys self) sers).run K es).srv.stack = [])
    (hdn : ((Sys.init (Srv.init addr tys self) sers).run K es).down n = [])
    {k : Nat} {f : Fut} (hf : (((Sys.init (Srv.init addr tys self) sers).run K es).cli n).fut k = some f) : f.answered := by
  obtain ⟨hh, hfail⟩ := undisturbed_healthy W U
  have hdisc : f ≠ .gone := by
    rintro rfl
    have hc := C119_connected W U n
    rw [sys_run_cli, cli_init_eq] at hc hf
    have := gone_run (K := K) _ (Cli.inv_init n (sers n)) (by intro k h; simp [Cli.fut, Cli.init] at h) k hf
    rw [hc] at this; simp at this
  cases f with
  | value v => trivial
  | remote x y => trivial
  | gone => exact absurd rfl hdisc
  | pending =>
    refine done_answered W (fun h => by rw [hh.isOpen] at h; simp at h) hdn hld hcc hread hf ?_
    have hf' := hf
    rw [sys_run_cli, cli_init_eq] at hf'
    have ht := tracked_run (K := K) _ (c := Cli.init n (sers n)) (by intro k h; simp [Cli.fut, Cli.init] at h) (serverMsgs_of W n)
    obtain ⟨b, hb⟩ := ht k hf'
    rcases table_asked hb with h | ⟨q, hq, hqk, _⟩
    · simp [Cli.init] at h
    obtain ⟨wt, h1, h2⟩ := C35_no_gaps (K := K) (addr := addr) (tys := tys) (self := self) (sers := sers) W.fits n hlu
    rw [hup] at h2
    have hw : wt = [] := by simpa using h2.symm
    subst hw
    simp only [List.map_nil, List.append_nil] at h1
    have hmem : q.brief ∈ started n ((Sys.init (Srv.init addr tys self) sers).outs K es) := by
      rw [← h1]; exact List.mem_map.2 ⟨q, hq, rfl⟩
    have hacc : 0 < countAccepted n k ((Sys.init (Srv.init addr tys self) sers).outs K es) := by
      rw [countAccepted_started]
      exact List.countP_pos_iff.2 ⟨_, hmem, by simp [Asked.brief, hqk]⟩
    have h7 := (C07_one_reply_each W.laws addr tys self (W.types _ (by simp [defaultTypes])) ((Sys.init (Srv.init addr tys self) sers).srvHist K es)
      (fun e he => (undisturbed_tame W U e he).lib) n k).2.2
    have hro : countRaised n k ((Sys.init (Srv.init addr tys self) sers).outs K es) = 0 := by
      refine List.countP_eq_zero.2 fun x hx => ?_
      have := hfail x hx
      cases x with
      | done c' k' y => cases y with
        | none => simp
        | some y => simp [Out.failure] at this
      | _ => simp
    rw [sys_run_srv] at hst
    have hop : ((Srv.init addr tys self).run ((Sys.init (Srv.init addr tys self) sers).srvHist K es)).1.countOpen n k = 0 := by
      rw [Srv.countOpen]
      rw [show (Sys.init (Srv.init addr tys self) sers).srv = Srv.init addr tys self from rfl] at hst
      rw [hst]; rfl
    have hd : 0 < countDone n k ((Sys.init (Srv.init addr tys self) sers).outs K es) := by
      have : (Sys.init (Srv.init addr tys self) sers).outs K es = ((Srv.init addr tys self).run ((Sys.init (Srv.init addr tys self) sers).srvHist K es)).2 := rfl
      rw [this] at hacc hro ⊢
      omega
    obtain ⟨x, hx, hx'⟩ := List.countP_pos_iff.1 hd
    cases x with
    | done c' k' r => cases r with
      | none =>
        simp only [Bool.and_eq_true, decide_eq_true_eq] at hx'
        obtain ⟨rfl, rfl⟩ := hx'
        exact hx
      | some r => simp at hx'
    | _ => simp at hx'

end

/-! ## How much there is to do -/

/-- the messages in a list of observations -/
def allSends (os : List Out) : Nat := os.countP fun o => match o with
  | .send .. => true
  | _ => false

/-- a name occurs among different names at most once -/
theorem sum_one (c : Bytes) : ∀ {ns : List Bytes}, ns.Nodup → (ns.map fun n => if c = n then 1 else 0).sum ≤ 1
  | [], _ => by simp
  | n :: ns, h => by
    obtain ⟨h1, h2⟩ := List.nodup_cons.1 h
    have ih := sum_one c h2
    simp only [List.map_cons, List.sum_cons]
    by_cases hc : c = n
    · subst hc
      have : (ns.map fun n => if c = n then 1 else 0).sum = 0 := by
        clear ih h h2
        induction ns with
        | nil => rfl
        | cons m ns ih =>
          simp only [List.mem_cons, not_or] at h1
          simp [h1.1, ih h1.2]
      simp [this]
    · simp [hc]; exact ih

theorem sum_add (f g : Bytes → Nat) : ∀ ns : List Bytes, (ns.map fun n => f n + g n).sum = (ns.map f).sum + (ns.map g).sum
  | [] => rfl
  | n :: ns => by simp only [List.map_cons, List.sum_cons, sum_add f g ns]; omega

theorem sum_sentTo {ns : List Bytes} (hns : ns.Nodup) : ∀ os : List Out, (ns.map fun n => (sentTo n os).length).sum ≤ allSends os
  | [] => by
    have : (ns.map fun n => (sentTo n []).length) = ns.map fun _ => 0 := rfl
    rw [this]; clear this hns
    induction ns with
    | nil => simp
    | cons _ _ ih => simpa using ih
  | o :: os => by
    have ih := sum_sentTo hns os
    have hsplit : ∀ n, (sentTo n (o :: os)).length = (sentTo n [o]).length + (sentTo n os).length := by
      intro n
      rw [show o :: os = [o] ++ os from rfl, sentTo_append, List.length_append]
    rw [show (fun n => (sentTo n (o :: os)).length) = fun n => (sentTo n [o]).length + (sentTo n os).length from funext hsplit, sum_add]
    have h1 : (ns.map fun n => (sentTo n [o]).length).sum ≤ allSends [o] := by
      cases o with
      | send c ser w =>
        have : (fun n => (sentTo n [.send c ser w]).length) = fun n => if c = n then 1 else 0 := by
          funext n
          by_cases h : c = n <;> simp [sentTo, h]
        rw [this]
        exact Nat.le_trans (sum_one c hns) (by simp [allSends])
      | _ =>
        clear ih
        induction ns with
        | nil => simp
        | cons _ _ ih => simpa [sentTo, allSends] using ih (List.nodup_cons.1 hns).2
    have h2 : allSends (o :: os) = allSends [o] + allSends os := by
      simp only [allSends, List.countP_cons, List.countP_nil]; omega
    omega

/-- updating one of different names -/
theorem sum_upd {α : Type} (f : α → Nat) (g : Bytes → α) (m : Bytes) (a : α) : ∀ {ns : List Bytes}, ns.Nodup → m ∈ ns →
    (ns.map fun n => f (upd g m a n)).sum + f (g m) = (ns.map fun n => f (g n)).sum + f a
  | [], _, h => by simp at h
  | n :: ns, hn, h => by
    obtain ⟨h1, h2⟩ := List.nodup_cons.1 hn
    simp only [List.map_cons, List.sum_cons]
    by_cases hm : m = n
    · subst hm
      have : (ns.map fun n => f (upd g m a n)) = ns.map fun n => f (g n) := by
        refine List.map_congr_left fun x hx => ?_
        have : x ≠ m := fun h => h1 (h ▸ hx)
        simp [upd, this]
      rw [this]
      simp only [upd, if_true]
      omega
    · have ih := sum_upd f g m a h2 ((List.mem_cons.1 h).resolve_left hm)
      have : upd g m a n = g n := by simp [upd, Ne.symm hm]
      rw [this]
      omega

theorem allSends_append (a b : List Out) : allSends (a ++ b) = allSends a + allSends b := by simp [allSends]

theorem finish_allSends (H : Heap) (s : Srv) (c k rt cl r) : allSends (s.finish H c k rt cl r).2 ≤ 1 := by
  rcases finish_shape H s c k rt cl r with ⟨_, _, ser, w, x, h⟩ | ⟨_, x, h⟩ | ⟨_, h | ⟨x, h⟩⟩ <;> rw [h] <;> simp [allSends]

theorem finish_stack119 (H : Heap) (s : Srv) (c k rt cl r) : (s.finish H c k rt cl r).1.stack = s.stack := by
  obtain ⟨t, ht⟩ := respond_state H s c k rt r
  unfold Srv.finish
  generalize s.respond H c k rt r = x at ht ⊢
  obtain ⟨s1, o, x⟩ := x
  simp only at ht
  subst ht
  cases x
  · simp only; split <;> rfl
  · rfl

theorem process_sends (H : Heap) (s : Srv) (c : Bytes) (m : Msg) (hm : m.action ≠ "close") :
    allSends (s.process H c m).2 + 2 * (s.process H c m).1.stack.length ≤ 2 * s.stack.length + 2 := by
  have hr : ∀ (s : Srv) (a : String) (opts : Val) s' o task, s.action H c a opts = .running s' o task → allSends o = 0 ∧ s'.stack = s.stack := by
    intro s a opts s' o task
    unfold Srv.action
    repeat' split
    all_goals first
      | (intro h; simp only [Started.running.injEq] at h; obtain ⟨rfl, rfl, rfl⟩ := h; exact ⟨by simp [allSends], rfl⟩)
      | (intro h; simp at h)
  have hf : ∀ (s : Srv) cl r, allSends (s.finish H c m.reqId m.returnType cl r).2 + 2 * (s.finish H c m.reqId m.returnType cl r).1.stack.length ≤
      2 * s.stack.length + 2 := by
    intro s cl r
    have := finish_allSends H s c m.reqId m.returnType cl r
    rw [finish_stack119]; omega
  unfold Srv.process
  simp only
  split
  · exact hf { s with clients := s.clients.set c m.serType } _ _
  split
  · exact hf { s with clients := s.clients.set c m.serType } _ _
  split
  · exact hf { s with clients := s.clients.set c m.serType } _ _
  split
  · rename_i opts _ _ s1 o r h
    have h1 := action_state H { s with clients := s.clients.set c m.serType } c m.action opts
    rw [h] at h1
    obtain ⟨⟨t, n, b1, b2, rfl, h2, _⟩, _⟩ := h1
    obtain ⟨_, _, rfl⟩ := h2 hm
    exact hf _ _ _
  · rename_i h
    have h1 := hr _ _ _ _ _ _ h
    simp only [List.length_cons, h1.2, h1.1]
    omega

theorem nodup_names (l : List Bytes) : ∃ ns : List Bytes, ns.Nodup ∧ ∀ n ∈ l, n ∈ ns := by
  induction l with
  | nil => exact ⟨[], List.nodup_nil, by simp⟩
  | cons x l ih =>
    obtain ⟨ns, h1, h2⟩ := ih
    by_cases hx : x ∈ ns
    · refine ⟨ns, h1, fun n hn => ?_⟩
      rcases List.mem_cons.1 hn with rfl | hn
      · exact hx
      · exact h2 n hn
    · refine ⟨x :: ns, List.nodup_cons.2 ⟨hx, h1⟩, fun n hn => ?_⟩
      rcases List.mem_cons.1 hn with rfl | hn
      · exact List.mem_cons_self
      · exact List.mem_cons_of_mem _ (h2 n hn)

/-- the client of an event -/
def SEv.who : SEv → List Bytes
  | .request n .. => [n]
  | .deliver n _ _ => [n]
  | .forget n _ => [n]
  | .closeClient n => [n]
  | .serve n _ => [n]
  | .loseUp n _ => [n]
  | .loseDown n _ => [n]
  | _ => []

/-- what is left to do -/
def Sys.todo (ns : List Bytes) (s : Sys) : Nat :=
  (ns.map fun n => 3 * (s.up n).length).sum + (ns.map fun n => (s.down n).length).sum + 2 * s.srv.stack.length

theorem client_todo {K : Codec} {ns : List Bytes} (hns : ns.Nodup) (s : Sys) {n : Bytes} (hn : n ∈ ns) (e : CEv) :
    (s.client K n e).todo ns = s.todo ns + 3 * ((s.cli n).asked K [e]).length := by
  have h := sum_upd (fun l : List (List Bytes) => 3 * l.length) s.up n (s.up n ++ transmitted ((s.cli n).step K e).2) hns hn
  simp only [Sys.todo, Sys.client]
  rw [step_transmitted] at h ⊢
  simp only [List.length_append, List.length_map] at h
  omega

theorem server_todo {ns : List Bytes} (hns : ns.Nodup) (s : Sys) (e : Ev) :
    (s.server e).todo ns + 2 * s.srv.stack.length ≤ s.todo ns + allSends (s.srv.step e).2 + 2 * (s.srv.step e).1.stack.length := by
  have h := sum_sentTo hns (s.srv.step e).2
  simp only [Sys.todo, Sys.server, List.length_append, sum_add]
  omega

theorem countRequests_cons (e : SEv) (es : List SEv) : countRequests (e :: es) = countRequests [e] + countRequests es := by
  cases e <;> simp [countRequests]; omega

theorem step_todo {K : Codec} {L : Lib} {u : Bytes → Option String} {ns : List Bytes} (hns : ns.Nodup) {s : Sys} {e : SEv}
    (hh : Healthy u s.srv) (ht : ∀ ev ∈ s.srvEvs e, TameEv L u ev) (hw : ∀ n ∈ e.who, n ∈ ns) :
    (s.moves e).toNat + (s.step K e).todo ns ≤ s.todo ns + 3 * countRequests [e] := by
  cases e with
  | request n E t a o rt sy =>
    have h := client_todo (K := K) hns s (hw n (by simp [SEv.who])) (.send E t a o rt sy)
    have h2 : ((s.cli n).asked K [.send E t a o rt sy]).length ≤ 1 := by
      simp only [Cli.asked, List.append_nil]; split <;> simp
    simp only [Sys.step, Sys.moves, countRequests, Bool.toNat_false, h]
    omega
  | forget n k =>
    have h := client_todo (K := K) hns s (hw n (by simp [SEv.who])) (.drop k)
    simp only [Sys.step, Sys.moves, countRequests, Bool.toNat_false, h]
    simp [Cli.asked]
  | closeClient n =>
    have h := client_todo (K := K) hns s (hw n (by simp [SEv.who])) .close
    simp only [Sys.step, Sys.moves, countRequests, Bool.toNat_false, h]
    simp [Cli.asked]
  | deliver n P junk =>
    simp only [Sys.step, Sys.moves, countRequests]
    split
    · rename_i ho
      cases hd : s.down n with
      | nil => simp
      | cons p r =>
        obtain ⟨ser, w⟩ := p
        simp only
        have hn := hw n (by simp [SEv.who])
        have h := client_todo (K := K) hns { s with down := upd s.down n r } hn (.recv P (if ser = (s.cli n).ser then w else junk))
        have h2 := sum_upd (fun l : List (Ser × Wire) => l.length) s.down n r hns hn
        rw [h]
        simp only [Cli.asked, Sys.todo, List.append_nil, List.length_nil]
        simp only [hd, List.length_cons] at h2
        simp only [ho, List.isEmpty_cons, Bool.not_false, Bool.and_self, Bool.toNat_true]
        omega
    · rename_i ho
      simp [ho]
  | serve n H =>
    simp only [Sys.step, Sys.moves, countRequests]
    cases hu : s.up n with
    | nil => simp
    | cons m r =>
      have htk : s.srv.takes = true := by simp [Srv.takes, hh.isOpen, hh.alive, hh.sock]
      simp only [htk, if_true, List.isEmpty_cons, Bool.not_false, Bool.toNat_true]
      have hn := hw n (by simp [SEv.who])
      have h2 := sum_upd (fun l : List (List Bytes) => 3 * l.length) s.up n r hns hn
      simp only [hu, List.length_cons] at h2
      have h3 := server_todo hns { s with up := upd s.up n r } (.recv H (n :: m))
      have hm := (ht (.recv H (n :: m)) (by simp [Sys.srvEvs, hu])).msg H _ rfl
      obtain ⟨⟨c, x, hr, _⟩, hnc⟩ := hm
      have h4 := process_sends H s.srv c x (fun h => hnc ⟨c, x, hr, h⟩)
      simp only [Srv.step, hh.isOpen, hh.alive, hh.sock, Bool.or_self, Bool.false_eq_true, Bool.true_eq_false, if_false, hr] at h3
      have h5 : allSends (.accept c x.reqId x.action x.serType :: (s.srv.process H c x).2) = allSends (s.srv.process H c x).2 := by
        simp [allSends]
      rw [h5] at h3
      have h6 : ({ s with up := upd s.up n r } : Sys).todo ns + 3 = s.todo ns := by
        simp only [Sys.todo]; omega
      omega
  | ret H r =>
    have h3 := server_todo hns s (.ret H r)
    simp only [Sys.step, Sys.moves, countRequests]
    cases hs : s.srv.stack with
    | nil =>
      simp only [Srv.step, hs] at h3
      simp [allSends, hs] at h3 ⊢
      exact h3
    | cons f st =>
      rw [show s.srv.step (.ret H r) = { s.srv with stack := st }.finish H f.caller f.reqId f.returnType false (f.task.result H r) by
        simp only [Srv.step, hs], hs] at h3
      have h4 := finish_allSends H { s.srv with stack := st } f.caller f.reqId f.returnType false (f.task.result H r)
      rw [finish_stack119] at h3
      simp only [List.length_cons] at h3 h4
      simp
      omega
  | publish H name v =>
    have h3 := server_todo hns s (.publish H name v)
    simp only [Sys.step, Sys.moves, countRequests]
    have : allSends (s.srv.step (.publish H name v)).2 = 0 ∧ (s.srv.step (.publish H name v)).1.stack = s.srv.stack := by
      simp only [Srv.step]; split <;> exact ⟨rfl, rfl⟩
    rw [this.1, this.2] at h3
    simp
    omega
  | mkProxy H v kw =>
    have h3 := server_todo hns s (.mkProxy H v kw)
    simp only [Sys.step, Sys.moves, countRequests]
    have : allSends (s.srv.step (.mkProxy H v kw)).2 = 0 ∧ (s.srv.step (.mkProxy H v kw)).1.stack = s.srv.stack := ⟨rfl, rfl⟩
    rw [this.1, this.2] at h3
    simp
    omega
  | loseUp n i =>
    have h2 := sum_upd (fun l : List (List Bytes) => 3 * l.length) s.up n ((s.up n).eraseIdx i) hns (hw n (by simp [SEv.who]))
    simp only [Sys.step, Sys.moves, countRequests, Sys.todo, Bool.toNat_false]
    have h3 := (List.eraseIdx_sublist (s.up n) i).length_le
    omega
  | loseDown n i =>
    have h2 := sum_upd (fun l : List (Ser × Wire) => l.length) s.down n ((s.down n).eraseIdx i) hns (hw n (by simp [SEv.who]))
    simp only [Sys.step, Sys.moves, countRequests, Sys.todo, Bool.toNat_false]
    have h3 := (List.eraseIdx_sublist (s.down n) i).length_le
    omega

theorem run_todo {K : Codec} {L : Lib} (hL : L.Laws) {u : Bytes → Option String} {ns : List Bytes} (hns : ns.Nodup) : ∀ {es : List SEv} {s : Sys},
    Healthy u s.srv → (∀ ev ∈ s.srvHist K es, TameEv L u ev) → (∀ e ∈ es, ∀ n ∈ e.who, n ∈ ns) →
    s.countMoves K es + (s.run K es).todo ns ≤ s.todo ns + 3 * countRequests es
  | [], s, _, _, _ => by simp [Sys.countMoves, Sys.run, countRequests]
  | e :: es, s, hh, ht, hw => by
    have h1 := step_todo (K := K) hns hh (fun ev h => ht ev (by simp [Sys.srvHist, h])) (hw e List.mem_cons_self)
    have h2 := run_todo (K := K) hL hns (es := es) (s := s.step K e)
      (by rw [sys_step_srv]; exact (run_tame hL _ _ hh (fun ev h => ht ev (by simp [Sys.srvHist, h]))).1)
      (fun ev h => ht ev (by simp [Sys.srvHist, h])) (fun e he => hw e (List.mem_cons_of_mem _ he))
    simp only [Sys.countMoves, Sys.run]
    rw [countRequests_cons]
    omega

/-- **C119** However a run nobody disturbs is interleaved, at most three of its steps per request move something: once no
more requests are made, the system comes to rest. -/
theorem C119_bounded {K : Codec} {L : Lib} {idOf : Obj → Nat} {addr : String} {tys : List Ty} {self : Val} {sers : Bytes → Ser} {es : List SEv}
    {u : Bytes → Option String} (W : World K L idOf (Srv.init addr tys self) sers es) (U : UndisturbedSys u es) :
    (Sys.init (Srv.init addr tys self) sers).countMoves K es ≤ 3 * countRequests es := by
  obtain ⟨ns, h1, h2⟩ := nodup_names (es.flatMap SEv.who)
  have h := run_todo (K := K) W.laws h1 (healthy_init u addr tys self W.types) (undisturbed_tame W U)
    (fun e he n hn => h2 n (List.mem_flatMap.2 ⟨e, he, hn⟩))
  have h0 : (Sys.init (Srv.init addr tys self) sers).todo ns = 0 := by
    simp only [Sys.todo, Sys.init, List.length_nil]
    simp only [Srv.init, List.length_nil, Nat.mul_zero, Nat.add_zero]
    clear h h1 h2
    induction ns with
    | nil => rfl
    | cons _ _ ih => simpa using ih
  omega

/-- **C119** When nothing can move any more, no client waits for anything: every future of every client whose messages were not lost
and could be read is answered. -/
theorem C119_rest {K : Codec} {L : Lib} {idOf : Obj → Nat} {addr : String} {tys : List Ty} {self : Val} {sers : Bytes → Ser} {es : List SEv}
    {u : Bytes → Option String} (W : World K L idOf (Srv.init addr tys self) sers es) (U : UndisturbedSys u es)
    (hrest : ∀ e, ((Sys.init (Srv.init addr tys self) sers).run K es).moves e = false) {n : Bytes}
    (hlu : ∀ i, SEv.loseUp n i ∉ es) (hld : ∀ i, SEv.loseDown n i ∉ es) (hcc : .closeClient n ∉ es)
    (hread : ∀ P w, .recv P w ∈ (Sys.init (Srv.init addr tys self) sers).cliHist K n es → ∃ v, (sers n).loads P.recv w = .ok v)
    {k : Nat} {f : Fut} (hf : (((Sys.init (Srv.init addr tys self) sers).run K es).cli n).fut k = some f) : f.answered := by
  have hso : (((Sys.init (Srv.init addr tys self) sers).run K es).cli n).sockOpen = true := by
    rw [sys_run_cli, cli_init_eq, sockOpen_run (cliHist_close (K := K) (s := Sys.init (Srv.init addr tys self) sers) hcc)]
    rfl
  have h1 := hrest (.serve n Ex.heap2)
  have h2 := hrest (.ret Ex.heap2 (.ok .none))
  have h3 := hrest (.deliver n Ex.cenv .nil)
  simp only [Sys.moves, hso, Bool.not_eq_false', List.isEmpty_iff, Bool.true_and] at h1 h2 h3
  exact C119_answered W U hlu hld hcc hread h1 h2 h3 hf

namespace Ex

theorem undisturbed_evs : UndisturbedSys heap2.utf8 evs where
  utf8 := by simp [evs, req, rd, SEv.heap?]
  text := by
    have : heap2.tbBad = false := rfl
    simp [evs, req, rd, SEv.heap?, this]
  names := by
    have hA : heap2.utf8 nA ≠ none := by decide +kernel
    have hB : heap2.utf8 nB ≠ none := by decide +kernel
    simp only [evs, req, rd, List.mem_cons, List.not_mem_nil, reduceCtorEq, false_or, or_false, SEv.request.injEq]
    rintro n E t a o rt sy (h | h | h | h) <;> (rw [h.1]; assumption)
  noClose := by
    simp only [evs, req, rd, List.mem_cons, List.not_mem_nil, reduceCtorEq, false_or, or_false, SEv.request.injEq]
    rintro n E t a o rt sy (h | h | h | h) <;> (rw [h.2.2.2.1]; decide)

/-- C119: four requests, one without reply and one that runs user code; eight steps move something, and nothing is left. -/
example : sys.countMoves codec2 evs = 8 ∧ countRequests evs = 4 ∧ ((sys.run codec2 evs).up nA).isEmpty ∧ ((sys.run codec2 evs).up nB).isEmpty ∧
    ((sys.run codec2 evs).down nA).isEmpty ∧ ((sys.run codec2 evs).down nB).isEmpty ∧ (sys.run codec2 evs).srv.stack.isEmpty := by decide +kernel
example : sys.countMoves codec2 evs ≤ 12 := C119_bounded world_evs undisturbed_evs

/-- C119: a call that runs user code takes three steps: the bound is reached. -/
example : sys.countMoves codec2 [req nA (callObjReq (.int 5) (.list []) (.dict [])) "auto" "async", .serve nA heap2, .ret heap2 (.ok .none), rd nA, rd nA] = 3 := by decide +kernel

/-- C119: before the last message is read the future of the second request of A is pending. -/
example : (match ((sys.run codec2 (evs.take 11)).cli nA).fut 1 with | some .pending => true | _ => false) = true ∧
    ((sys.run codec2 (evs.take 11)).down nA).length = 1 := by decide +kernel

/-- C119 needs that nothing is lost: a request lost on the way is never answered, though nothing can move any more. -/
example : let es := [req nB pingReq "auto" "async", .loseUp nB 0]
    (match ((sys.run codec2 es).cli nB).fut 0 with | some .pending => true | _ => false) = true ∧
    ((sys.run codec2 es).up nB).isEmpty ∧ ((sys.run codec2 es).down nB).isEmpty ∧ (sys.run codec2 es).srv.stack.isEmpty := by decide +kernel

end Ex

namespace Ex

/-! ## The theorems on these cases -/

example := C119_serving world_evs undisturbed_evs
example := C119_connected world_evs undisturbed_evs nA
/-- All messages of a client can be read. -/
def allRead (es : List SEv) (n : Bytes) : Bool := (sys.cliHist codec2 n es).all fun e => match e with
  | .recv P w => ((sers2 n).loads P.recv w).toOption.isSome
  | _ => true
theorem allRead_spec {es n} (h : allRead es n = true) : ∀ P w, .recv P w ∈ sys.cliHist codec2 n es → ∃ v, (sers2 n).loads P.recv w = .ok v := by
  intro P w hm
  have := List.all_eq_true.1 h _ hm
  simp only at this
  cases hl : (sers2 n).loads P.recv w with
  | ok v => exact ⟨v, rfl⟩
  | error e => rw [hl] at this; cases this
example : ∃ f, ((sys.run codec2 evs).cli nA).fut 1 = some f ∧ f.answered := by
  have hs : (((sys.run codec2 evs).cli nA).fut 1).isSome = true := by decide +kernel
  obtain ⟨f, hf⟩ := Option.isSome_iff_exists.1 hs
  exact ⟨f, hf, C119_answered world_evs undisturbed_evs (by simp [evs, req, rd]) (by simp [evs, req, rd]) (by simp [evs, req, rd])
    (allRead_spec (by decide +kernel)) (List.isEmpty_iff.1 (by decide +kernel)) (List.isEmpty_iff.1 (by decide +kernel)) (List.isEmpty_iff.1 (by decide +kernel)) hf⟩

/-- One call, from the request to its answer. -/
def evsOne : List SEv := [req nA (callObjReq (.int 5) (.list []) (.dict [])) "auto" "async", .serve nA heap2, .ret heap2 (.ok .none), rd nA]
theorem world_one : World codec2 lib heap2.idOf srv sers2 evsOne :=
  world2 (by simp [evsOne, req, rd, SEv.heap?]) (by simp only [evsOne, req, rd, List.mem_cons, List.not_mem_nil, reduceCtorEq, false_or, or_false, SEv.deliver.injEq]; rintro n P j h; exact h.2.1)
theorem undisturbed_one : UndisturbedSys heap2.utf8 evsOne where
  utf8 := by simp [evsOne, req, rd, SEv.heap?]
  text := by
    have : heap2.tbBad = false := rfl
    simp [evsOne, req, rd, SEv.heap?, this]
  names := by
    have hA : heap2.utf8 nA ≠ none := by decide +kernel
    simp only [evsOne, req, rd, List.mem_cons, List.not_mem_nil, reduceCtorEq, or_false, SEv.request.injEq]
    rintro n E t a o rt sy h; rw [h.1]; assumption
  noClose := by
    simp only [evsOne, req, rd, List.mem_cons, List.not_mem_nil, reduceCtorEq, or_false, SEv.request.injEq]
    rintro n E t a o rt sy h; rw [h.2.2.2.1]; decide
/-- Nothing can move any more, for whatever client. -/
theorem rest_one (e : SEv) : (sys.run codec2 evsOne).moves e = false := by
  have hst : (sys.run codec2 evsOne).srv.stack = [] := List.isEmpty_iff.1 (by decide +kernel)
  have key : ∀ n : Bytes, (sys.run codec2 evsOne).up n = [] ∧ (sys.run codec2 evsOne).down n = [] := by
    intro n
    obtain ⟨ns, h1, h2⟩ := nodup_names [nA, n]
    have h := run_todo (K := codec2) world_one.laws h1 (healthy_init heap2.utf8 "tcp://a:1" [] self world_one.types) (undisturbed_tame world_one undisturbed_one)
      (fun e he m hm => h2 m (by
        simp only [evsOne, req, rd, List.mem_cons, List.not_mem_nil, or_false] at he
        rcases he with rfl | rfl | rfl | rfl <;> simp_all [SEv.who]))
    have hm : sys.countMoves codec2 evsOne = 3 := by decide +kernel
    have hr : countRequests evsOne = 1 := by decide +kernel
    have h0 : sys.todo ns = 0 := by
      simp only [Sys.todo, sys, Sys.init, srv, Srv.init, List.length_nil, Nat.mul_zero, Nat.add_zero]
      clear h h1 h2
      induction ns with
      | nil => rfl
      | cons _ _ ih => simpa using ih
    have hz : (sys.run codec2 evsOne).todo ns = 0 := by
      have h : sys.countMoves codec2 evsOne + (sys.run codec2 evsOne).todo ns ≤ sys.todo ns + 3 * countRequests evsOne := h
      omega
    have hn := h2 n (by simp)
    simp only [Sys.todo] at hz
    have le : ∀ f : Bytes → Nat, f n ≤ (ns.map f).sum := fun f => by
      clear h h0 hz h1 h2
      induction ns with
      | nil => cases hn
      | cons m ns ih =>
        simp only [List.map_cons, List.sum_cons]
        rcases List.mem_cons.1 hn with rfl | hn
        · omega
        · have := ih hn; omega
    have l1 := le fun n => 3 * ((sys.run codec2 evsOne).up n).length
    have l2 := le fun n => ((sys.run codec2 evsOne).down n).length
    exact ⟨List.eq_nil_of_length_eq_zero (by omega), List.eq_nil_of_length_eq_zero (by omega)⟩
  cases e <;> simp [Sys.moves, hst, key]
example : ∃ f, ((sys.run codec2 evsOne).cli nA).fut 0 = some f ∧ f.answered := by
  have hs : (((sys.run codec2 evsOne).cli nA).fut 0).isSome = true := by decide +kernel
  obtain ⟨f, hf⟩ := Option.isSome_iff_exists.1 hs
  exact ⟨f, hf, C119_rest world_one undisturbed_one rest_one (by simp [evsOne, req, rd]) (by simp [evsOne, req, rd]) (by simp [evsOne, req, rd])
    (allRead_spec (by decide +kernel)) hf⟩

end Ex

end Verif
