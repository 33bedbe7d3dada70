import Verif.Spec.Limits
import Verif.Proof.SystemClose
import Verif.Props.Quiet
/-! # Lemmas about systems with limited queues -/
namespace Verif

/-- the requests of `n` being carried out that want a reply -/
def Srv.openFor (n : Bytes) (s : Srv) : Nat := s.stack.countP fun f => decide (f.caller = n) && decide (0 ≤ f.reqId)

/-- how many of the requests started want a reply -/
def wants (l : List (Int × String × String)) : Nat := l.countP fun x => decide (0 ≤ x.1)

theorem finish_sentTo (H : Heap) (s : Srv) (c k rt cl r) (n : Bytes) :
    (sentTo n (s.finish H c k rt cl r).2).length ≤ if c = n ∧ 0 ≤ k then 1 else 0 := by
  rcases finish_shape H s c k rt cl r with ⟨hk, _, ser, w, x, h⟩ | ⟨_, x, h⟩ | ⟨_, h | ⟨x, h⟩⟩ <;> rw [h]
  · by_cases hc : c = n <;> simp [sentTo, hc, hk]
  all_goals simp [sentTo]

theorem sentTo_cons_one (n : Bytes) (x : Out) (l : List Out) : sentTo n (x :: l) = sentTo n [x] ++ sentTo n l := by
  rw [← sentTo_append]; rfl

theorem broadcast_sentTo (c n : Bytes) : ∀ (cs : Dict Bytes String), cs.WF →
    (sentTo n (broadcast c cs).1).length ≤ (if n = c then 0 else 1) ∧ (n ∉ cs.map (·.1) → (sentTo n (broadcast c cs).1).length = 0)
  | [], _ => by simp [broadcast, sentTo]
  | (c0, st) :: cs, hwf => by
    have hwf' : c0 ∉ cs.map (·.1) ∧ Dict.WF cs := by simpa [Dict.WF] using hwf
    have ih := broadcast_sentTo c n cs hwf'.2
    simp only [broadcast]
    split
    · exact ⟨ih.1, fun h => ih.2 fun h' => h (by simp [h'])⟩
    · rename_i hc
      split
      · exact ⟨by simp [sentTo], by simp [sentTo]⟩
      · rw [sentTo_cons_one, List.length_append]
        by_cases hn : c0 = n
        · subst hn
          rw [ih.2 hwf'.1]
          simp [sentTo, hc]
        · have : (sentTo n [Out.send c0 ‹Ser› disconnectWire]).length = 0 := by simp [sentTo, hn]
          rw [this, Nat.zero_add]
          exact ⟨ih.1, fun h => ih.2 fun h' => h (by simp [h'])⟩

theorem neutral_sentTo {n : Bytes} {o : List Out} : o = [] → (sentTo n o).length = 0 := by rintro rfl; rfl

theorem running_sentTo {H : Heap} {s : Srv} {c a opts s' o task} (n : Bytes) (h : s.action H c a opts = .running s' o task) :
    (sentTo n o).length = 0 := by
  revert h
  unfold Srv.action
  repeat' split
  all_goals first
    | (intro h; simp only [Started.running.injEq] at h; obtain ⟨rfl, rfl, rfl⟩ := h; simp [sentTo])
    | (intro h; simp at h)

theorem close_sentTo {H : Heap} {s : Srv} {c opts s' o r} (n : Bytes) (hwf : s.clients.WF) (h : s.action H c "close" opts = .finished s' o r) :
    (sentTo n o).length ≤ if n = c then 0 else 1 := by
  have hb := (broadcast_sentTo c n s.clients hwf).1
  have ho : o = (broadcast c s.clients).1 := by
    simp only [Srv.action] at h
    unfold Srv.closeAction at h
    simp only at h
    generalize broadcast c s.clients = x at h ⊢
    obtain ⟨o1, r1⟩ := x
    cases r1 with
    | error e => simp only [Started.finished.injEq] at h; exact h.2.1.symm
    | ok u => simp only at h; split at h <;> (simp only [Started.finished.injEq] at h; exact h.2.1.symm)
  rw [ho]; exact hb

/-- what is sent to a client was asked for, or tells it of the server's end, once -/
theorem srv_step_sends (s : Srv) (hwf : s.clients.WF) (e : Ev) (n : Bytes) :
    (sentTo n (s.step e).2).length + (s.step e).1.openFor n + (!(s.step e).1.closed).toNat ≤
      wants (started n (s.step e).2) + s.openFor n + (!s.closed).toNat := by
  have hfo : ∀ (s : Srv) H c k rt cl r, (s.finish H c k rt cl r).1.openFor n = s.openFor n := by
    intro s H c k rt cl r; rw [Srv.openFor, finish_stack119, Srv.openFor]
  rw [step_started]
  cases e with
  | publish H name v =>
    simp only [Srv.step]
    split <;> simp [sentTo, wants, Srv.openFor]
  | mkProxy H v kw => simp [Srv.step, sentTo, wants, Srv.openFor]
  | ret H r =>
    simp only [Srv.step]
    cases hs : s.stack with
    | nil => simp [sentTo, wants]
    | cons f st =>
      simp only
      rw [hfo, finish_closed]
      have h1 := finish_sentTo H { s with stack := st } f.caller f.reqId f.returnType false (f.task.result H r) n
      have h2 : s.openFor n = Srv.openFor n { s with stack := st } + if f.caller = n ∧ 0 ≤ f.reqId then 1 else 0 := by
        simp only [Srv.openFor, hs, List.countP_cons]
        simp
      simp only [wants, List.countP_nil]
      omega
  | recv H parts =>
    by_cases ht : s.takes = true
    · have ht' := ht
      simp only [Srv.takes, Bool.and_eq_true, Bool.not_eq_true'] at ht'
      simp only [ht, if_true, Srv.step, ht'.1.1, ht'.1.2, ht'.2, Bool.or_self, Bool.false_eq_true, Bool.true_eq_false, if_false]
      cases hr : readOne H parts with
      | error x => simp [sentTo, wants, Srv.openFor]
      | ok p =>
        obtain ⟨c, m⟩ := p
        simp only
        have hw : wants (if c = n then [(m.reqId, m.action, m.serType)] else []) = if c = n ∧ 0 ≤ m.reqId then 1 else 0 := by
          by_cases hc : c = n <;> by_cases hk : 0 ≤ m.reqId <;> simp [wants, hc, hk]
        have hsend : ∀ o, sentTo n (.accept c m.reqId m.action m.serType :: o) = sentTo n o := by intro o; simp [sentTo]
        rw [hw, hsend]
        have hf : ∀ (s1 : Srv) cl r, s1.openFor n = s.openFor n → s1.closed = s.closed →
            (sentTo n (s1.finish H c m.reqId m.returnType cl r).2).length + (s1.finish H c m.reqId m.returnType cl r).1.openFor n +
              (!(s1.finish H c m.reqId m.returnType cl r).1.closed).toNat ≤ (if c = n ∧ 0 ≤ m.reqId then 1 else 0) + s.openFor n + (!false).toNat := by
          intro s1 cl r h1 h2
          have := finish_sentTo H s1 c m.reqId m.returnType cl r n
          rw [hfo, finish_closed, h1, h2, ht'.1.1]; omega
        unfold Srv.process
        simp only
        split
        · exact hf _ _ _ rfl rfl
        split
        · exact hf _ _ _ rfl rfl
        split
        · exact hf _ _ _ rfl rfl
        split
        · rename_i opts _ _ s1 o r h
          have h1 := action_state H { s with clients := s.clients.set c m.serType } c m.action opts
          rw [h] at h1
          obtain ⟨⟨t, ns, b1, b2, rfl, h2, h3⟩, _⟩ := h1
          by_cases ha : m.action = "close"
          · rw [ha] at h
            have hb := close_sentTo n (Dict.wf_set hwf _ _) h
            have hfin := finish_sentTo H { s with clients := s.clients.set c m.serType, refs := t, ns := ns, closed := b1, registered := b2 }
              c m.reqId m.returnType (decide (m.action = "close")) r n
            rw [hfo, finish_closed, h3 ha]
            simp only [sentTo_append, List.length_append, Bool.not_true, Bool.not_false, Bool.toNat_false, Bool.toNat_true]
            simp only [h3 ha] at hfin
            have ho : Srv.openFor n { s with clients := s.clients.set c m.serType, refs := t, ns := ns, closed := true, registered := b2 } = s.openFor n := rfl
            rw [ho]
            by_cases hc : c = n
            · subst hc
              simp only [if_true] at hb
              omega
            · have hc' : ¬ (n = c) := fun h => hc h.symm
              simp only [hc, false_and, if_false] at hfin ⊢
              rw [if_neg hc'] at hb
              omega
          · obtain ⟨rfl, rfl, rfl⟩ := h2 ha
            exact hf _ _ _ rfl rfl
        · rename_i opts _ _ s1 o task h
          have h1 := action_state H { s with clients := s.clients.set c m.serType } c m.action opts
          rw [h] at h1
          obtain ⟨rfl, _, _⟩ := h1
          have h2 := running_sentTo n h
          rw [h2]
          simp only [Srv.openFor, List.countP_cons, ht'.1.1]
          simp only [Bool.and_eq_true, decide_eq_true_eq]
          omega
    · have ho : (sentTo n (s.step (.recv H parts)).2).length = 0 ∧ (s.step (.recv H parts)).1.openFor n = s.openFor n ∧
          (s.step (.recv H parts)).1.closed = s.closed := by
        simp only [Srv.step]
        by_cases h1 : (s.closed || s.dead) = true
        · simp [h1, sentTo]
        · simp only [h1, Bool.false_eq_true, if_false]
          by_cases h2 : s.sockOpen = false
          · simp [h2, sentTo, Srv.openFor]
          · exfalso
            apply ht
            simp only [Bool.or_eq_true, not_or, Bool.not_eq_true] at h1
            simp [Srv.takes, h1, h2]
      rw [ho.1, ho.2.1, ho.2.2]
      simp [ht, wants]

/-! ## The system -/

/-- requests that want a reply -/
def wantsReply (A : List Asked) : Nat := A.countP fun q => decide (0 ≤ q.id)

/-- messages read -/
def readsIn (es : List CEv) : Nat := es.countP (fun e => match e with | .recv _ _ => true | _ => false)

theorem readsIn_recvs (es : List CEv) : readsIn es = (recvs es).length := by
  induction es with
  | nil => rfl
  | cons e es ih =>
    simp only [readsIn, recvs] at ih ⊢
    rw [List.countP_cons, ih]
    cases e <;> simp [List.filterMap_cons]

theorem wants_brief (A : List Asked) : wants (A.map Asked.brief) = wantsReply A := by
  simp only [wants, wantsReply, List.countP_map]; rfl

theorem srv_run_sends (s : Srv) (hwf : s.clients.WF) (n : Bytes) : ∀ (es : List Ev), es.length ≤ 1 →
    (sentTo n (s.run es).2).length + (s.run es).1.openFor n + (!(s.run es).1.closed).toNat ≤
      wants (started n (s.run es).2) + s.openFor n + (!s.closed).toNat
  | [], _ => by simp [Srv.run, sentTo, started, wants]
  | [e], _ => by
    have := srv_step_sends s hwf e n
    simpa [Srv.run] using this
  | _ :: _ :: _, h => by simp at h

/-- the balance of a client's replies -/
theorem sys_step_balance {K : Codec} {s : Sys} {e : SEv} {n : Bytes} {A : List Asked} (hf : ∀ H, e.heap? = some H → Fits K H)
    (hwf : s.srv.clients.WF) (hA : s.up n = A.map (Asked.parts K)) : ∃ A', (s.step K e).up n = A'.map (Asked.parts K) ∧
      wantsReply A' + (s.step K e).srv.openFor n + ((s.step K e).down n).length + (!(s.step K e).srv.closed).toNat + readsIn (s.cliEvs n e) ≤
        wantsReply A + s.srv.openFor n + (s.down n).length + (!s.srv.closed).toNat + wantsReply ((s.cli n).asked K (s.cliEvs n e)) := by
  obtain ⟨tk, A', h1, h2, h3, -⟩ := up_step (n := n) hf hA
  refine ⟨A', h2, ?_⟩
  have hev : (s.srvEvs e).length ≤ 1 := by
    cases e <;> simp only [Sys.srvEvs] <;> (repeat' split) <;> simp
  have hs := srv_run_sends s.srv hwf n _ hev
  rw [← sys_step_srv K, h1, wants_brief] at hs
  have hc : wantsReply (tk ++ A') ≤ wantsReply (A ++ (s.cli n).asked K (s.cliEvs n e)) := h3.countP_le
  simp only [wantsReply, List.countP_append] at hc hs ⊢
  rcases down_step (K := K) (s := s) e n with ⟨i, -, hd, hcl, ho⟩ | ⟨-, hcl, hd⟩ | ⟨P, junk, ser, w, -, -, hd, hcl, ho⟩
  · rw [hcl, hd]
    have := List.length_eraseIdx_le (s.down n) i
    simp only [readsIn, List.countP_nil]
    rw [hcl] at hc
    rw [ho] at hs
    simp only [sentTo, List.filterMap_nil, List.length_nil] at hs
    omega
  · rw [readsIn_recvs, cliEvs_recvs hcl, hd, List.length_append]
    simp only [List.length_nil]
    omega
  · have hl : (s.down n).length = ((s.step K e).down n).length + 1 := by rw [hd]; rfl
    rw [ho] at hs
    simp only [sentTo, List.filterMap_nil, List.length_nil] at hs
    have hr : readsIn (s.cliEvs n e) = 1 := by rw [hcl]; rfl
    rw [hr]
    omega

theorem step_wf (K : Codec) {s : Sys} (e : SEv) (h : s.srv.clients.WF) : (s.step K e).srv.clients.WF := by
  rw [sys_step_srv]; exact run_wf h _

theorem readCount_cons (K : Codec) (cap : Nat) (n) (s : Sys) (e es) :
    s.readCount K cap n (e :: es) = readsIn (s.cliEvs n e) + (s.stepCap K cap e).readCount K cap n es := rfl

theorem wantCount_cons (K : Codec) (cap : Nat) (n) (s : Sys) (e es) :
    s.wantCount K cap n (e :: es) = wantsReply ((s.cli n).asked K (s.cliEvs n e)) + (s.stepCap K cap e).wantCount K cap n es := rfl

/-- the balance over a run with limited queues -/
theorem run_balance {K : Codec} {cap : Nat} {n : Bytes} : ∀ {es : List SEv} {s : Sys} {A : List Asked}, (∀ e ∈ es, ∀ H, e.heap? = some H → Fits K H) →
    s.srv.clients.WF → s.up n = A.map (Asked.parts K) →
    (s.runCap K cap es).srv.clients.WF ∧ ∃ A', (s.runCap K cap es).up n = A'.map (Asked.parts K) ∧
      wantsReply A' + (s.runCap K cap es).srv.openFor n + ((s.runCap K cap es).down n).length + (!(s.runCap K cap es).srv.closed).toNat +
          s.readCount K cap n es ≤
        wantsReply A + s.srv.openFor n + (s.down n).length + (!s.srv.closed).toNat + s.wantCount K cap n es
  | [], s, A, _, hwf, hA => ⟨hwf, A, hA, Nat.le_refl _⟩
  | e :: es, s, A, hf, hwf, hA => by
    obtain ⟨A1, h1, h2⟩ := sys_step_balance (hf e List.mem_cons_self) hwf hA
    obtain ⟨h3, A2, h4, h5⟩ := run_balance (cap := cap) (es := es) (s := s.stepCap K cap e) (A := A1)
      (fun e he => hf e (List.mem_cons_of_mem _ he)) (step_wf K e hwf) h1
    refine ⟨h3, A2, h4, ?_⟩
    rw [readCount_cons, wantCount_cons]
    have hl : ((s.stepCap K cap e).down n).length ≤ ((s.step K e).down n).length := by
      simp only [Sys.stepCap, Sys.capped, List.length_take]; omega
    have hsrv : (s.stepCap K cap e).srv = (s.step K e).srv := rfl
    rw [hsrv] at h5
    show wantsReply A2 + ((s.stepCap K cap e).runCap K cap es).srv.openFor n + (((s.stepCap K cap e).runCap K cap es).down n).length +
      (!((s.stepCap K cap e).runCap K cap es).srv.closed).toNat + _ ≤ _
    omega

theorem runCap_append (K : Codec) (cap : Nat) : ∀ (a b : List SEv) (s : Sys), s.runCap K cap (a ++ b) = (s.runCap K cap a).runCap K cap b
  | [], _, _ => rfl
  | e :: a, b, s => runCap_append K cap a b (s.stepCap K cap e)

theorem readCount_append (K : Codec) (cap : Nat) (n) : ∀ (a b : List SEv) (s : Sys),
    s.readCount K cap n (a ++ b) = s.readCount K cap n a + (s.runCap K cap a).readCount K cap n b
  | [], b, s => by simp [Sys.readCount, Sys.runCap]
  | e :: a, b, s => by
    rw [List.cons_append, readCount_cons, readCount_cons, readCount_append K cap n a b, Nat.add_assoc]; rfl

theorem wantCount_append (K : Codec) (cap : Nat) (n) : ∀ (a b : List SEv) (s : Sys),
    s.wantCount K cap n (a ++ b) = s.wantCount K cap n a + (s.runCap K cap a).wantCount K cap n b
  | [], b, s => by simp [Sys.wantCount, Sys.runCap]
  | e :: a, b, s => by
    rw [List.cons_append, wantCount_cons, wantCount_cons, wantCount_append K cap n a b, Nat.add_assoc]; rfl

theorem runCap_down (K : Codec) (cap : Nat) (n : Bytes) : ∀ (es : List SEv) (s : Sys), (s.down n).length ≤ cap → ((s.runCap K cap es).down n).length ≤ cap
  | [], _, h => h
  | e :: es, s, _ => runCap_down K cap n es (s.stepCap K cap e) (by simp only [Sys.stepCap, Sys.capped, List.length_take]; omega)

theorem wantCount_none (K : Codec) (cap : Nat) (n : Bytes) : ∀ (es : List SEv) (s : Sys), (∀ E t a o rt sy, SEv.request n E t a o rt sy ∉ es) →
    s.wantCount K cap n es = 0
  | [], _, _ => rfl
  | e :: es, s, h => by
    rw [wantCount_cons, wantCount_none K cap n es _ (fun E t a o rt sy h' => h E t a o rt sy (List.mem_cons_of_mem _ h'))]
    have : (s.cli n).asked K (s.cliEvs n e) = [] := by
      cases e with
      | request n' E t a o rt sy =>
        have hne : n' ≠ n := by rintro rfl; exact h _ _ _ _ _ _ List.mem_cons_self
        simp [Sys.cliEvs, hne, Cli.asked]
      | _ => simp only [Sys.cliEvs] <;> (repeat' split) <;> simp [Cli.asked]
    rw [this]; rfl

/-! ## Answered futures -/

theorem answered_step {K : Codec} {c : Cli} (hi : c.Inv) (e : CEv) : ∃ k0 : Nat, ∀ k f, (c.step K e).1.fut k = some f → f.answered →
    c.fut k = some f ∨ (k = k0 ∧ readsIn [e] = 1) := by
  have key : ∀ k f, (c.step K e).1.fut k = some f → f.answered → c.fut k = some f ∨ ∃ P w d, e = .recv P w ∧ c.reads P w d ∧ IsReply P d k := by
    intro k f h ha
    cases hc : c.fut k with
    | none =>
      rcases fut_none_step (K := K) hi e k hc with h2 | h2 <;> rw [h] at h2
      · simp at h2
      · simp only [Option.some.injEq] at h2; subst h2; exact ha.elim
    | some f0 =>
      rcases fut_step (K := K) hi e k hc with h2 | ⟨_, h2⟩ | ⟨_, P, w, d, h2, h3, ⟨f', h4, _, h5⟩ | ⟨_, h5⟩⟩
      · rw [h] at h2; exact .inl h2.symm
      · rw [h] at h2; simp at h2
      · exact .inr ⟨P, w, d, h2, h3, h4⟩
      · rw [h] at h5; simp only [Option.some.injEq] at h5; subst h5; exact ha.elim
  by_cases hex : ∃ k0 P w d, e = .recv P w ∧ c.reads P w d ∧ IsReply P d k0
  · obtain ⟨k0, P, w, d, rfl, h1, h2⟩ := hex
    refine ⟨k0, fun k f h ha => ?_⟩
    rcases key k f h ha with h3 | ⟨P', w', d', h3, h4, h5⟩
    · exact .inl h3
    · simp only [CEv.recv.injEq] at h3
      obtain ⟨rfl, rfl⟩ := h3
      simp only [Cli.reads] at h1 h4
      rw [h1] at h4
      simp only [Except.ok.injEq, Val.dict.injEq] at h4
      subst h4
      exact .inr ⟨isReply_unique h5 h2, rfl⟩
  · refine ⟨0, fun k f h ha => ?_⟩
    rcases key k f h ha with h3 | ⟨P, w, d, h3, h4, h5⟩
    · exact .inl h3
    · exact absurd ⟨k, P, w, d, h3, h4, h5⟩ hex

/-- the future of request `k` has the outcome -/
def Answered (c : Cli) (k : Nat) : Prop := ∃ f, c.fut k = some f ∧ f.answered

theorem answered_count_step {K : Codec} {c : Cli} (hi : c.Inv) {es : List CEv} (hl : es.length ≤ 1) {ks : List Nat} (hn : ks.Nodup)
    (ha : ∀ k ∈ ks, Answered (c.run K es).1 k) : ∃ ks' : List Nat, ks'.Nodup ∧ (∀ k ∈ ks', Answered c k) ∧ ks.length ≤ ks'.length + readsIn es := by
  match es, hl with
  | [], _ => exact ⟨ks, hn, ha, Nat.le_refl _⟩
  | [e], _ =>
    obtain ⟨k0, h⟩ := answered_step (K := K) hi e
    have ha' : ∀ k ∈ ks, Answered c k ∨ (k = k0 ∧ readsIn [e] = 1) := by
      intro k hk
      obtain ⟨f, h1, h2⟩ := ha k hk
      rcases h k f h1 h2 with h3 | h3
      · exact .inl ⟨f, h3, h2⟩
      · exact .inr h3
    by_cases hr : readsIn [e] = 1
    · refine ⟨ks.erase k0, hn.erase _, fun k hk => ?_, ?_⟩
      · have := (hn.mem_erase_iff).1 hk
        rcases ha' k this.2 with h1 | ⟨h1, _⟩
        · exact h1
        · exact absurd h1 this.1
      · have := List.le_length_erase (a := k0) (l := ks)
        omega
    · exact ⟨ks, hn, fun k hk => (ha' k hk).resolve_right fun h => hr h.2, by omega⟩

theorem runCap_inv {K : Codec} {cap : Nat} {n : Bytes} : ∀ {es : List SEv} {s : Sys}, (s.cli n).Inv → ((s.runCap K cap es).cli n).Inv
  | [], _, h => h
  | e :: es, s, h => runCap_inv (es := es) (s := s.stepCap K cap e) (by
      show ((s.step K e).cli n).Inv
      rw [sys_step_cli]; exact run_inv _ h)

theorem answered_count {K : Codec} {cap : Nat} {n : Bytes} : ∀ {es : List SEv} {s : Sys} {ks : List Nat}, (s.cli n).Inv → ks.Nodup →
    (∀ k ∈ ks, Answered ((s.runCap K cap es).cli n) k) →
    ∃ ks' : List Nat, ks'.Nodup ∧ (∀ k ∈ ks', Answered (s.cli n) k) ∧ ks.length ≤ ks'.length + s.readCount K cap n es
  | [], _, ks, _, hn, ha => ⟨ks, hn, ha, Nat.le_refl _⟩
  | e :: es, s, ks, hi, hn, ha => by
    have hi' : ((s.stepCap K cap e).cli n).Inv := runCap_inv (es := [e]) hi
    obtain ⟨k1, h1, h2, h3⟩ := answered_count (es := es) (s := s.stepCap K cap e) hi' hn ha
    have hev : (s.cliEvs n e).length ≤ 1 := by
      cases e <;> simp only [Sys.cliEvs] <;> (repeat' split) <;> simp
    have h2' : ∀ k ∈ k1, Answered (((s.cli n).run K (s.cliEvs n e)).1) k := by
      intro k hk
      have := h2 k hk
      rw [← sys_step_cli]
      exact this
    obtain ⟨k2, h4, h5, h6⟩ := answered_count_step hi hev h1 h2'
    exact ⟨k2, h4, h5, by rw [readCount_cons]; omega⟩

/-! ## Dropped messages are lost messages -/

theorem take_eraseIdx {α : Type} (cap m : Nat) (l : List α) : (l.take cap ++ l.drop (cap + m)).eraseIdx cap = l.take cap ++ l.drop (cap + (m + 1)) := by
  by_cases h : cap ≤ l.length
  · rw [List.eraseIdx_append_of_length_le (by rw [List.length_take]; omega), List.length_take, Nat.min_eq_left h, Nat.sub_self]
    congr 1
    rw [List.eraseIdx_zero, List.tail_drop]
    congr 1
  · rw [List.drop_of_length_le (by omega), List.drop_of_length_le (by omega), List.append_nil, List.eraseIdx_of_length_le]
    rw [List.length_take]; omega

theorem upd_upd {β : Type} (f : Bytes → β) (n : Bytes) (a b : β) : upd (upd f n a) n b = upd f n b := by
  funext x; simp only [upd]; split <;> rfl

theorem upd_self {β : Type} (f : Bytes → β) (n : Bytes) : upd f n (f n) = f := by
  funext x; simp only [upd]; split
  · rename_i h; rw [h]
  · rfl

theorem run_lose (K : Codec) (cap : Nat) (n : Bytes) : ∀ (m : Nat) (s : Sys),
    s.run K (List.replicate m (.loseDown n cap)) = { s with down := upd s.down n ((s.down n).take cap ++ (s.down n).drop (cap + m)) }
  | 0, s => by
    rw [Nat.add_zero, List.take_append_drop, upd_self]; rfl
  | m + 1, s => by
    rw [List.replicate_succ', sys_run_append, run_lose K cap n m s]
    simp only [Sys.run, Sys.step, upd_upd]
    rw [show upd s.down n ((s.down n).take cap ++ (s.down n).drop (cap + m)) n = (s.down n).take cap ++ (s.down n).drop (cap + m) by simp [upd],
      take_eraseIdx]

/-- the queues of the clients in `N` are cut by losing messages -/
theorem run_loses (K : Codec) (cap : Nat) : ∀ (N : List Bytes) (s : Sys), ∃ es : List SEv, (∀ e ∈ es, e.losesDown = true) ∧
    s.run K es = { s with down := fun n => if n ∈ N then (s.down n).take cap else s.down n }
  | [], s => ⟨[], by simp, by simp [Sys.run]⟩
  | n :: N, s => by
    obtain ⟨es, h1, h2⟩ := run_loses K cap N s
    refine ⟨es ++ List.replicate (s.down n).length (.loseDown n cap), ?_, ?_⟩
    · intro e he
      rcases List.mem_append.1 he with h | h
      · exact h1 e h
      · rw [(List.mem_replicate.1 h).2]; rfl
    · rw [sys_run_append, h2, run_lose]
      congr 1
      funext x
      simp only [upd, List.mem_cons]
      by_cases hx : x = n
      · subst hx
        simp only [if_true, true_or]
        have : ∀ l : List (Ser × Wire), l.length ≤ (s.down x).length → l.take cap ++ l.drop (cap + (s.down x).length) = l.take cap := by
          intro l hl
          rw [List.drop_of_length_le (by omega), List.append_nil]
        by_cases hN : x ∈ N
        · simp only [hN, if_true]
          rw [this _ (by rw [List.length_take]; omega), List.take_take, Nat.min_self]
        · simp only [hN, if_false]
          exact this _ (Nat.le_refl _)
      · simp [hx]

/-- those something is sent to -/
def sendees (os : List Out) : List Bytes := os.filterMap fun o => match o with
  | .send c _ _ => some c
  | _ => none

theorem sentTo_sendees {n : Bytes} {os : List Out} (h : n ∉ sendees os) : sentTo n os = [] := by
  induction os with
  | nil => rfl
  | cons o os ih =>
    have h2 : n ∉ sendees os := fun h' => h (by
      cases o <;> simp only [sendees, List.filterMap_cons] <;> first | exact List.mem_cons_of_mem _ h' | exact h')
    rw [sentTo_cons_one, ih h2, List.append_nil]
    cases o with
    | send c ser w =>
      have : c ≠ n := by rintro rfl; exact h (by simp [sendees])
      simp [sentTo, this]
    | _ => rfl

theorem stepCap_refines (K : Codec) (cap : Nat) (s : Sys) (hd : ∀ n, (s.down n).length ≤ cap) (e : SEv) : ∃ es : List SEv, (∀ e ∈ es, e.losesDown = true) ∧
    s.stepCap K cap e = s.run K (e :: es) := by
  obtain ⟨es, h1, h2⟩ := run_loses K cap (sendees (s.srv.run (s.srvEvs e)).2) (s.step K e)
  refine ⟨es, h1, ?_⟩
  show _ = (s.step K e).run K es
  rw [h2, Sys.stepCap, Sys.capped]
  congr 1
  funext n
  split
  · rfl
  · rename_i h
    rw [List.take_of_length_le]
    rcases down_step (K := K) (s := s) e n with ⟨i, -, h3, -⟩ | ⟨-, -, h3⟩ | ⟨P, junk, ser, w, -, -, h3, -⟩
    · rw [h3]; exact Nat.le_trans (List.length_eraseIdx_le _ _) (hd n)
    · rw [h3, sentTo_sendees h, List.append_nil]; exact hd n
    · have := hd n
      rw [h3] at this
      simp only [List.length_cons] at this
      omega

theorem runCap_refines (K : Codec) (cap : Nat) : ∀ (es : List SEv) (s : Sys), (∀ n, (s.down n).length ≤ cap) →
    ∃ es' : List SEv, s.runCap K cap es = s.run K es' ∧ es'.filter (fun e => !e.losesDown) = es.filter (fun e => !e.losesDown)
  | [], s, _ => ⟨[], rfl, rfl⟩
  | e :: es, s, hd => by
    obtain ⟨l, h1, h2⟩ := stepCap_refines K cap s hd e
    obtain ⟨es', h3, h4⟩ := runCap_refines K cap es (s.stepCap K cap e) (fun n => by
      simp only [Sys.stepCap, Sys.capped, List.length_take]; omega)
    refine ⟨e :: l ++ es', ?_, ?_⟩
    · rw [sys_run_append, ← h2, ← h3]; rfl
    · have : l.filter (fun e => !e.losesDown) = [] := by
        rw [List.filter_eq_nil_iff]; intro x hx; simp [h1 x hx]
      rw [List.filter_append, h4, List.filter_cons, this]
      rw [List.filter_cons]
      split <;> rfl

end Verif
