import Verif.Proof.Client
import Verif.Props.ServerExample
/-!
# C26-C32: the client

Histories are arbitrary lists of events (`CEv`): requests, messages read from the socket, futures collected, the
client closed; messages are arbitrary trees.
-/
namespace Verif

/-! ## C26 -/

theorem log_ids (K : Codec) : ∀ (es : List CEv) (c : Cli), ∃ ids : List Int,
    (c.log K es).map (fun p => p.2.head?) = ids.map (fun i => some (K.num i)) ∧
    (c.log K es).map (fun p => decide (p.1 = "off")) = ids.map (fun i => decide (i = -1)) ∧
    (∀ i ∈ ids, i = -1 ∨ (c.nextId : Int) ≤ i) ∧
    (ids.filter (fun i => decide (i ≠ -1))).Pairwise (· < ·)
  | [], c => ⟨[], rfl, rfl, by simp, by simp⟩
  | e :: es, c => by
    obtain ⟨ids, h1, h2, h3, h4⟩ := log_ids K es (c.step K e).1
    cases e with
    | recv P w =>
      refine ⟨ids, by simpa [Cli.log] using h1, by simpa [Cli.log] using h2, ?_, h4⟩
      intro i hi
      have h5 : (c.step K (.recv P w)).1.nextId = c.nextId := (receive_const P c w).2.2.1
      have := h3 i hi; rw [h5] at this; exact this
    | drop k => exact ⟨ids, by simpa [Cli.log] using h1, by simpa [Cli.log] using h2, h3, h4⟩
    | close => exact ⟨ids, by simpa [Cli.log] using h1, by simpa [Cli.log] using h2, h3, h4⟩
    | send E t a o rt sy =>
      have hc := send_cases K E t c a o rt sy
      have hs : (c.step K (.send E t a o rt sy)).1 = (c.send K E t a o rt sy).2.1 := rfl
      rw [hs] at h1 h2 h3
      simp only [Cli.log, hs]
      generalize (c.send K E t a o rt sy).2.1 = c' at *
      generalize (c.send K E t a o rt sy).2.2.1 = m at *
      generalize (c.send K E t a o rt sy).2.2.2 = r at *
      clear hs
      cases hc with
      | disconnected _ => exact ⟨ids, by simpa using h1, by simpa using h2, h3, h4⟩
      | failed _ =>
        refine ⟨ids, by simpa using h1, by simpa using h2, ?_, h4⟩
        intro i hi
        rcases h3 i hi with h | h
        · exact .inl h
        · right; simp only at h; split at h <;> omega
      | off _ _ hoff =>
        refine ⟨-1 :: ids, by simpa using h1, by simpa [hoff] using h2, ?_, by simpa using h4⟩
        simpa using h3
      | sent hd hso hno _ _ =>
        refine ⟨(c.nextId : Int) :: ids, by simpa using h1, by simp only [List.map_append, List.map_cons, h2]; simp [hno], ?_, ?_⟩
        · intro i hi
          rcases List.mem_cons.1 hi with h | h
          · right; omega
          · rcases h3 i h with h | h
            · exact .inl h
            · right; simp only at h; omega
        · have hn : ((c.nextId : Int) ≠ -1) := by omega
          rw [List.filter_cons_of_pos (by simpa using hn)]
          refine List.pairwise_cons.2 ⟨?_, h4⟩
          intro i hi
          obtain ⟨hi1, hi2⟩ := List.mem_filter.1 hi
          rcases h3 i hi1 with h | h
          · simp [h] at hi2
          · simp only at h; omega
      | invalid hd hso hno _ _ =>
        refine ⟨(c.nextId : Int) :: ids, by simpa using h1, by simp only [List.map_append, List.map_cons, h2]; simp [hno], ?_, ?_⟩
        · intro i hi
          rcases List.mem_cons.1 hi with h | h
          · right; omega
          · rcases h3 i h with h | h
            · exact .inl h
            · right; simp only at h; omega
        · have hn : ((c.nextId : Int) ≠ -1) := by omega
          rw [List.filter_cons_of_pos (by simpa using hn)]
          refine List.pairwise_cons.2 ⟨?_, h4⟩
          intro i hi
          obtain ⟨hi1, hi2⟩ := List.mem_filter.1 hi
          rcases h3 i hi1 with h | h
          · simp [h] at hi2
          · simp only at h; omega

/-- **C26** In every history of every client there are numbers, one for each message transmitted, such that each message
starts with its number; the number is -1 exactly for the requests sent with sync 'off', and the others are
non-negative and strictly increasing, so pairwise distinct. -/
theorem C26_ids_increase (K : Codec) (name : Bytes) (ser : Ser) (es : List CEv) : ∃ ids : List Int,
    ((Cli.init name ser).log K es).map (fun p => p.2.head?) = ids.map (fun i => some (K.num i)) ∧
    ((Cli.init name ser).log K es).map (fun p => decide (p.1 = "off")) = ids.map (fun i => decide (i = -1)) ∧
    (∀ i ∈ ids, i = -1 ∨ 0 ≤ i) ∧ (ids.filter (fun i => decide (i ≠ -1))).Pairwise (· < ·) := by
  obtain ⟨ids, h1, h2, h3, h4⟩ := log_ids K es (Cli.init name ser)
  exact ⟨ids, h1, h2, fun i hi => by have := h3 i hi; simpa [Cli.init] using this, h4⟩

/-- the messages of `log` are exactly the ones transmitted -/
theorem log_transmits (K : Codec) : ∀ (es : List CEv) (c : Cli),
    (c.log K es).map (·.2) = (c.run K es).2.filterMap (fun o => match o with | .transmit m => some m | _ => none)
  | [], _ => rfl
  | e :: es, c => by
    have ih := log_transmits K es (c.step K e).1
    have hr : (c.run K (e :: es)).2 = (c.step K e).2 ++ ((c.step K e).1.run K es).2 := rfl
    rw [hr, List.filterMap_append, ← ih]
    simp only [Cli.log, List.map_append]
    congr 1
    cases e with
    | send E t a o rt sy =>
      simp only [Cli.step]
      generalize c.send K E t a o rt sy = x
      obtain ⟨t', c', m, r⟩ := x
      cases m <;> simp
    | recv P w => rfl
    | drop k => rfl
    | close => rfl

/-! ## C27, C28 -/

/-- The state of the future of request `k` (`none` if nobody holds it). -/
def Cli.fut (c : Cli) (k : Nat) : Option Fut := c.futs.get? k

/-- How one step changes the future of request `k`. -/
theorem fut_step {K : Codec} {c : Cli} (hi : c.Inv) (e : CEv) (k : Nat) {f : Fut} (hf : c.fut k = some f) :
    ((c.step K e).1.fut k = some f) ∨ (e = .drop k ∧ (c.step K e).1.fut k = none) ∨
    (f = .pending ∧ ∃ P w d, e = .recv P w ∧ c.reads P w d ∧
      ((∃ f', IsReply P d k ∧ Says P d f' ∧ (c.step K e).1.fut k = some f') ∨
       ((IsDisconnect d ∨ ClosesOwn P c d) ∧ (c.step K e).1.fut k = some .gone))) := by
  cases e with
  | drop k' =>
    by_cases h : k' = k
    · subst h; right; left; exact ⟨rfl, by simp [Cli.step, Cli.drop, Cli.fut, Dict.get?_erase]⟩
    · left; simpa [Cli.step, Cli.drop, Cli.fut, Dict.get?_erase, h] using hf
  | close => exact .inl hf
  | send E t a o rt sy =>
    left
    have hb : k < c.nextId := hi.bound k (by rw [Cli.fut] at hf; rw [hf]; simp)
    have hc := send_cases K E t c a o rt sy
    have hs : (c.step K (.send E t a o rt sy)).1 = (c.send K E t a o rt sy).2.1 := rfl
    rw [hs]
    generalize (c.send K E t a o rt sy).2.1 = c' at *
    generalize (c.send K E t a o rt sy).2.2.1 = m at *
    generalize (c.send K E t a o rt sy).2.2.2 = r at *
    cases hc with
    | disconnected _ => exact hf
    | failed _ => exact hf
    | off _ _ _ => exact hf
    | sent _ _ _ _ _ => simp only [Cli.fut, Dict.get?_set]; rw [if_neg (by omega)]; exact hf
    | invalid _ _ _ _ _ => exact hf
  | recv P w =>
    have hs : (c.step K (.recv P w)).1 = (c.receive P w).1 := rfl
    rw [hs]
    unfold Cli.receive
    split
    · exact .inl hf
    · split
      · exact .inl hf
      · rename_i msg hm
        have hc := processMsg_cases P c msg
        generalize (c.processMsg P msg).1 = c' at hc
        generalize (c.processMsg P msg).2 = r at hc
        have gone : ∀ c0 : Cli, (c0.table.get? k).isSome = false → c0.fut k = some f → c0.serverDisconnected.fut k = some f := by
          intro c0 h1 h2
          simp only [Cli.fut, Cli.serverDisconnected, gone_get]
          rw [h1]; exact h2
        cases hc with
        | ignored _ _ _ => exact .inl hf
        | lost _ _ _ _ _ => exact .inl hf
        | @set d k' b f' hd hr hb hsay _ =>
          subst hd
          by_cases hk : k' = k
          · subst hk
            right; right
            have := hi.pend k' b hb
            rw [Cli.fut, this] at hf
            simp only [Option.some.injEq] at hf
            exact ⟨hf.symm, P, w, d, rfl, hm, .inl ⟨f', hr, hsay, by simp [Cli.fut, Dict.get?_set]⟩⟩
          · left; simp only [Cli.fut, Dict.get?_set]; rw [if_neg hk]; exact hf
        | @closed d k' hd hr hb hsay =>
          subst hd
          by_cases hk : k' = k
          · subst hk
            right; right
            have := hi.pend k' true hb
            rw [Cli.fut, this] at hf
            simp only [Option.some.injEq] at hf
            refine ⟨hf.symm, P, w, d, rfl, hm, .inl ⟨_, hr, hsay, ?_⟩⟩
            simp [Cli.fut, Cli.serverDisconnected, gone_get, Dict.get?_erase, Dict.get?_set]
          · have hf' : ({ c with table := c.table.erase k', futs := c.futs.set k' (.value (.bool true)) } : Cli).fut k = some f := by
              simp only [Cli.fut, Dict.get?_set]; rw [if_neg hk]; exact hf
            cases ht : c.table.get? k with
            | none => left; exact gone _ (by simp [Dict.get?_erase, hk, ht]) hf'
            | some b =>
              right; right
              have := hi.pend k b ht
              rw [Cli.fut, this] at hf
              simp only [Option.some.injEq] at hf
              refine ⟨hf.symm, P, w, d, rfl, hm, .inr ⟨.inr ⟨k', hr, hsay, hb⟩, ?_⟩⟩
              simp [Cli.fut, Cli.serverDisconnected, gone_get, Dict.get?_erase, hk, ht]
        | @disconnect d hd hdis =>
          subst hd
          cases ht : c.table.get? k with
          | none => left; exact gone _ (by simp [ht]) hf
          | some b =>
            right; right
            have := hi.pend k b ht
            rw [Cli.fut, this] at hf
            simp only [Option.some.injEq] at hf
            exact ⟨hf.symm, P, w, d, rfl, hm, .inr ⟨.inl hdis, by simp [Cli.fut, Cli.serverDisconnected, gone_get, ht]⟩⟩

/-- **C27** After every history, a step that makes the future of request `k` done is the reading of a message that is
either a reply to request `k`, and then the future holds what the reply says, or tells of the server's end, and then the
future raises RuntimeError. -/
theorem C27_own_reply_only (K : Codec) (name : Bytes) (ser : Ser) (es : List CEv) (e : CEv) (k : Nat) (f : Fut)
    (hp : ((Cli.init name ser).run K es).1.fut k = some .pending)
    (hf : (((Cli.init name ser).run K es).1.step K e).1.fut k = some f) (hnp : f ≠ .pending) :
    ∃ P w d, e = .recv P w ∧ ((Cli.init name ser).run K es).1.reads P w d ∧
      ((IsReply P d k ∧ Says P d f) ∨ ((IsDisconnect d ∨ ClosesOwn P ((Cli.init name ser).run K es).1 d) ∧ f = .gone)) := by
  have hi := run_inv (K := K) es (Cli.inv_init name ser)
  rcases fut_step (K := K) hi e k hp with h | ⟨_, h⟩ | ⟨_, P, w, d, he, hr, h⟩
  · rw [h] at hf; simp only [Option.some.injEq] at hf; exact absurd hf.symm hnp
  · rw [h] at hf; simp at hf
  · refine ⟨P, w, d, he, hr, ?_⟩
    rcases h with ⟨f', h1, h2, h3⟩ | ⟨h1, h2⟩
    · rw [h3] at hf; simp only [Option.some.injEq] at hf; subst hf; exact .inl ⟨h1, h2⟩
    · rw [h2] at hf; simp only [Option.some.injEq] at hf; exact .inr ⟨h1, hf.symm⟩

/-- **C27** A reply that does not tell of the server's end changes no future but its own. -/
theorem C27_others_unchanged (K : Codec) (name : Bytes) (ser : Ser) (es : List CEv) (P : CliEnv) (w : Wire)
    (d : List (Val × Val)) (k k' : Nat) (hr : ((Cli.init name ser).run K es).1.reads P w d) (hk : IsReply P d k)
    (hn : ¬ ClosesOwn P ((Cli.init name ser).run K es).1 d) (hne : k' ≠ k) :
    (((Cli.init name ser).run K es).1.step K (.recv P w)).1.fut k' = ((Cli.init name ser).run K es).1.fut k' := by
  have hi := run_inv (K := K) es (Cli.inv_init name ser)
  generalize ((Cli.init name ser).run K es).1 = c at *
  cases hf : c.fut k' with
  | some f =>
    rcases fut_step (K := K) hi (.recv P w) k' hf with h | ⟨h, _⟩ | ⟨_, P', w', d', he, hr', h⟩
    · exact h
    · simp at h
    · simp only [CEv.recv.injEq] at he
      obtain ⟨rfl, rfl⟩ := he
      rw [Cli.reads] at hr hr'
      rw [hr] at hr'
      simp only [Except.ok.injEq, Val.dict.injEq] at hr'
      subst hr'
      rcases h with ⟨f', h1, _⟩ | ⟨h1 | h1, _⟩
      · exact absurd (isReply_unique h1 hk) hne
      · exact absurd h1 (isReply_disconnect hk)
      · exact absurd h1 hn
  | none =>
    show (c.receive P w).1.fut k' = none
    unfold Cli.receive
    split
    · exact hf
    · rw [hr]
      simp only
      have hc := processMsg_cases P c (.dict d)
      generalize (c.processMsg P (.dict d)).1 = c' at hc
      generalize (c.processMsg P (.dict d)).2 = r at hc
      cases hc with
      | ignored _ _ _ => exact hf
      | lost _ _ _ _ _ => exact hf
      | set hd hr' hb hs _ =>
        simp only [Val.dict.injEq] at hd; subst hd
        have := isReply_unique hr' hk
        simp only [Cli.fut, Dict.get?_set]
        rw [if_neg (by omega)]; exact hf
      | @closed d' k0 hd hr' hb hs =>
        simp only [Val.dict.injEq] at hd; subst hd
        exact absurd ⟨k0, hr', hs, hb⟩ hn
      | disconnect hd h =>
        simp only [Val.dict.injEq] at hd; subst hd
        exact absurd h (isReply_disconnect hk)

theorem fut_stays {K : Codec} : ∀ (es : List CEv) {c : Cli}, c.Inv → ∀ {k f}, c.fut k = some f → f ≠ .pending →
    CEv.drop k ∉ es → (c.run K es).1.fut k = some f
  | [], _, _, _, _, h, _, _ => h
  | e :: es, c, hi, k, f, h, hn, hd => by
    have h1 : (c.step K e).1.fut k = some f := by
      rcases fut_step (K := K) hi e k h with h | ⟨h, _⟩ | ⟨h, _⟩
      · exact h
      · exact absurd (List.mem_cons.2 (.inl h.symm)) hd
      · exact absurd h hn
    exact fut_stays es (step_inv e hi) h1 hn (fun h => hd (List.mem_cons_of_mem _ h))

/-- **C28** Whatever happens after a future is done, its outcome stays the same as long as somebody holds it. -/
theorem C28_outcome_fixed (K : Codec) (name : Bytes) (ser : Ser) (es es' : List CEv) (k : Nat) (f : Fut)
    (hf : ((Cli.init name ser).run K es).1.fut k = some f) (hn : f ≠ .pending) (hd : CEv.drop k ∉ es') :
    (((Cli.init name ser).run K es).1.run K es').1.fut k = some f :=
  fut_stays es' (run_inv es (Cli.inv_init name ser)) hf hn hd

/-! ## C29 -/

/-- pending futures are in the table -/
def Cli.Tracked (c : Cli) : Prop := ∀ k, c.fut k = some .pending → ∃ b, c.table.get? k = some b

theorem serverDisconnected_done {c : Cli} (ht : c.Tracked) (k) : c.serverDisconnected.fut k ≠ some .pending := by
  intro h
  simp only [Cli.fut, Cli.serverDisconnected, gone_get] at h
  split at h
  · simp at h
  · rename_i hn
    obtain ⟨b, hb⟩ := ht k h
    simp [hb] at hn

theorem tracked_set {c : Cli} (ht : c.Tracked) (k : Nat) (f : Fut) (hf : f ≠ .pending) :
    ({ c with table := c.table.erase k, futs := c.futs.set k f } : Cli).Tracked := by
  intro k' h
  simp only [Cli.fut, Dict.get?_set, Dict.get?_erase] at h ⊢
  split at h
  · simp only [Option.some.injEq] at h; exact absurd h hf
  · rename_i hne; rw [if_neg hne]; exact ht k' h

theorem says_done {P d f} (h : Says P d f) : f ≠ .pending := by rintro rfl; exact h

theorem tracked_step {K : Codec} {c : Cli} (e : CEv) (ht : c.Tracked) (hm : ServerMsgs c [e]) : (c.step K e).1.Tracked := by
  cases e with
  | drop k =>
    intro k' h
    simp only [Cli.step, Cli.drop, Cli.fut, Dict.get?_erase] at h ⊢
    split at h
    · simp at h
    · rename_i hne; rw [if_neg hne]; exact ht k' h
  | close => exact ht
  | send E t a o rt sy =>
    have hc := send_cases K E t c a o rt sy
    have hs : (c.step K (.send E t a o rt sy)).1 = (c.send K E t a o rt sy).2.1 := rfl
    rw [hs]
    generalize (c.send K E t a o rt sy).2.1 = c' at *
    generalize (c.send K E t a o rt sy).2.2.1 = m at *
    generalize (c.send K E t a o rt sy).2.2.2 = r at *
    cases hc with
    | disconnected _ => exact ht
    | failed _ => exact ht
    | off _ _ _ => exact ht
    | sent _ _ _ _ _ =>
      intro k h
      simp only [Cli.fut, Dict.get?_set] at h ⊢
      split
      · exact ⟨_, rfl⟩
      · rename_i hne; rw [if_neg hne] at h; exact ht k h
    | invalid _ _ _ _ _ => exact ht
  | recv P w =>
    have hs : (c.step K (.recv P w)).1 = (c.receive P w).1 := rfl
    rw [hs]
    unfold Cli.receive
    split
    · exact ht
    · split
      · exact ht
      · rename_i msg hl
        obtain ⟨d0, hd0, hsm⟩ := hm P w msg (by simp) hl
        have hc := processMsg_cases P c msg
        generalize (c.processMsg P msg).1 = c' at hc
        generalize (c.processMsg P msg).2 = r at hc
        cases hc with
        | ignored _ _ _ => exact ht
        | lost hd _ _ _ hn => rw [hd0] at hd; simp only [Val.dict.injEq] at hd; subst hd; exact absurd hsm hn
        | set _ _ _ hsay _ => exact tracked_set ht _ _ (says_done hsay)
        | closed _ _ _ hsay =>
          intro k h
          exact absurd h (serverDisconnected_done (tracked_set ht _ _ (says_done hsay)) k)
        | disconnect _ _ => intro k h; exact absurd h (serverDisconnected_done ht k)

theorem tracked_run {K : Codec} : ∀ (es : List CEv) {c : Cli}, c.Tracked → ServerMsgs c es → (c.run K es).1.Tracked
  | [], _, h, _ => h
  | e :: es, c, h, hm => by
    refine tracked_run es (tracked_step e h (fun P w v h1 h2 => hm P w v (by simp at h1; simp [h1]) h2)) ?_
    intro P w v h1 h2
    have h2 : (c.step K e).1.ser.loads P.recv w = .ok v := h2
    rw [(step_const' K c e).2.1] at h2
    exact hm P w v (List.mem_cons_of_mem _ h1) h2

theorem C27_reply_sets_inv {K : Codec} {c : Cli} (_ : c.Inv) {P : CliEnv} {w : Wire}
    {d : List (Val × Val)} {k : Nat} {f : Fut} {b : Bool} (ho : c.sockOpen = true)
    (hr : c.reads P w d) (hk : IsReply P d k) (hs : Says P d f) (ht : c.table.get? k = some b) :
    (c.step K (.recv P w)).1.fut k = some f := by
  show (c.receive P w).1.fut k = some f
  unfold Cli.receive
  rw [if_neg (by simp [ho]), hr]
  simp only
  have hc := processMsg_cases P c (.dict d)
  generalize (c.processMsg P (.dict d)).1 = c' at hc
  generalize (c.processMsg P (.dict d)).2 = r at hc
  cases hc with
  | ignored h _ _ => exact absurd hs (h d k b f rfl hk ht)
  | lost hd hr' _ hns _ => simp only [Val.dict.injEq] at hd; subst hd; exact absurd hs (hns f)
  | set hd hr' _ hs' _ =>
    simp only [Val.dict.injEq] at hd; subst hd
    have := isReply_unique hr' hk; subst this
    rw [says_unique hs hs']
    simp [Cli.fut, Dict.get?_set]
  | closed hd hr' hb hs' =>
    simp only [Val.dict.injEq] at hd; subst hd
    have := isReply_unique hr' hk; subst this
    rw [says_unique hs hs']
    simp [Cli.fut, Cli.serverDisconnected, gone_get, Dict.get?_erase, Dict.get?_set]
  | disconnect hd h => simp only [Val.dict.injEq] at hd; subst hd; exact absurd h (isReply_disconnect hk)

/-- **C27, converse** Reading the reply to a request whose future is pending makes it done with what the reply says, if all
messages read before were ones a server sends. -/
theorem C27_reply_sets (K : Codec) (name : Bytes) (ser : Ser) (es : List CEv) (P : CliEnv) (w : Wire)
    (d : List (Val × Val)) (k : Nat) (f : Fut) (hm : ServerMsgs (Cli.init name ser) es)
    (ho : ((Cli.init name ser).run K es).1.sockOpen = true)
    (hr : ((Cli.init name ser).run K es).1.reads P w d) (hk : IsReply P d k) (hs : Says P d f)
    (hp : ((Cli.init name ser).run K es).1.fut k = some .pending) :
    (((Cli.init name ser).run K es).1.step K (.recv P w)).1.fut k = some f := by
  obtain ⟨b, hb⟩ := tracked_run (K := K) es (c := Cli.init name ser) (by intro k h; simp [Cli.fut, Cli.init] at h) hm k hp
  exact C27_reply_sets_inv (run_inv (K := K) es (Cli.inv_init name ser)) ho hr hk hs hb

/-- The server's end was told to the client by this message. -/
def Tells (P : CliEnv) (c : Cli) (w : Wire) : Prop := ∃ d, c.reads P w d ∧ (IsDisconnect d ∨ ClosesOwn P c d)

theorem tells_disconnects {K : Codec} {c : Cli} {P w} (ho : c.sockOpen = true) (h : Tells P c w) :
    (c.step K (.recv P w)).1.disconnected = true := by
  obtain ⟨d, hr, h⟩ := h
  show (c.receive P w).1.disconnected = true
  unfold Cli.receive
  rw [if_neg (by simp [ho]), hr]
  simp only
  have hc := processMsg_cases P c (.dict d)
  generalize (c.processMsg P (.dict d)).1 = c' at hc
  generalize (c.processMsg P (.dict d)).2 = r at hc
  cases hc with
  | ignored h1 h2 _ =>
    rcases h with h | ⟨k, hk, hs, hb⟩
    · exact absurd h (h2 d rfl)
    · exact absurd hs (h1 d k true _ rfl hk hb)
  | lost hd hr' _ hns _ =>
    simp only [Val.dict.injEq] at hd; subst hd
    rcases h with h | ⟨k, hk, hs, hb⟩
    · exact absurd h (isReply_disconnect hr')
    · exact absurd hs (hns _)
  | set hd hr' hb' hs' hn =>
    simp only [Val.dict.injEq] at hd; subst hd
    rcases h with h | ⟨k, hk, hs, hb⟩
    · exact absurd h (isReply_disconnect hr')
    · have := isReply_unique hk hr'; subst this
      rw [hb] at hb'
      simp only [Option.some.injEq] at hb'
      exact absurd ⟨hb'.symm, says_unique hs' hs⟩ hn
  | closed _ _ _ _ => rfl
  | disconnect _ _ => rfl

/-- **C29** When, after any history in which the messages read are ones a server sends, a client whose socket is
open reads a disconnect message or the reply True to its own close request, no future is left pending, and every
future that was pending raises RuntimeError, except the one of the close request, which holds True. -/
theorem C29_disconnect_ends_futures (K : Codec) (name : Bytes) (ser : Ser) (es : List CEv) (P : CliEnv) (w : Wire)
    (hm : ServerMsgs (Cli.init name ser) es) (ho : ((Cli.init name ser).run K es).1.sockOpen = true)
    (h : Tells P ((Cli.init name ser).run K es).1 w) (k : Nat) (hp : ((Cli.init name ser).run K es).1.fut k = some .pending) :
    (((Cli.init name ser).run K es).1.step K (.recv P w)).1.fut k = some .gone ∨
    ((((Cli.init name ser).run K es).1.step K (.recv P w)).1.fut k = some (.value (.bool true)) ∧
      ∃ d, ((Cli.init name ser).run K es).1.reads P w d ∧ IsReply P d k) := by
  have hi := run_inv (K := K) es (Cli.inv_init name ser)
  have ht : ((Cli.init name ser).run K es).1.Tracked := tracked_run es (by intro k h; simp [Cli.fut, Cli.init] at h) hm
  have hdis := tells_disconnects (K := K) ho h
  generalize ((Cli.init name ser).run K es).1 = c at *
  obtain ⟨d, hr, hd⟩ := h
  rcases fut_step (K := K) hi (.recv P w) k hp with h1 | ⟨h1, _⟩ | ⟨_, P', w', d', he, hr', h1⟩
  · exfalso
    obtain ⟨b, hb⟩ := ht k hp
    have hi' := step_inv (K := K) (.recv P w) hi
    have htab := hi'.disc hdis
    revert h1
    show (c.receive P w).1.fut k = some .pending → False
    unfold Cli.receive
    rw [if_neg (by simp [ho]), hr]
    simp only
    have hc := processMsg_cases P c (.dict d)
    have htab' : (c.processMsg P (.dict d)).1.table = [] := by
      have : (c.step K (.recv P w)).1 = (c.processMsg P (.dict d)).1 := by
        show (c.receive P w).1 = _
        unfold Cli.receive
        rw [if_neg (by simp [ho]), hr]
      rw [← this]; exact htab
    generalize (c.processMsg P (.dict d)).1 = c' at hc htab'
    generalize (c.processMsg P (.dict d)).2 = r at hc
    cases hc with
    | ignored h1 h2 _ =>
      rcases hd with h | ⟨k, hk, hs, hb⟩
      · exact absurd h (h2 d rfl)
      · exact absurd hs (h1 d k true _ rfl hk hb)
    | lost hd' hr' _ hns _ =>
      simp only [Val.dict.injEq] at hd'; subst hd'
      rcases hd with h | ⟨k, hk, hs, hb⟩
      · exact absurd h (isReply_disconnect hr')
      · exact absurd hs (hns _)
    | set hd' hr' hb' hs' hn =>
      simp only [Val.dict.injEq] at hd'; subst hd'
      rcases hd with h | ⟨k, hk, hs, hb⟩
      · exact absurd h (isReply_disconnect hr')
      · have := isReply_unique hk hr'; subst this
        rw [hb] at hb'
        simp only [Option.some.injEq] at hb'
        exact absurd ⟨hb'.symm, says_unique hs' hs⟩ hn
    | closed _ _ _ hsay => exact serverDisconnected_done (tracked_set ht _ _ (says_done hsay)) k
    | disconnect _ _ => exact serverDisconnected_done ht k
  · simp at h1
  · simp only [CEv.recv.injEq] at he
    obtain ⟨rfl, rfl⟩ := he
    rw [Cli.reads] at hr hr'
    rw [hr] at hr'
    simp only [Except.ok.injEq, Val.dict.injEq] at hr'
    subst hr'
    rcases h1 with ⟨f', h1, h2, h3⟩ | ⟨_, h2⟩
    · rcases hd with hd | ⟨k', hk', hs, _⟩
      · exact absurd hd (isReply_disconnect h1)
      · rw [says_unique h2 hs] at h3
        exact .inr ⟨h3, d, hr, h1⟩
    · exact .inl h2

theorem send_disconnected {K : Codec} {E t} {c : Cli} (h : c.disconnected = true) (a o rt sy) :
    c.send K E t a o rt sy = (t, c, none, .error .runtimeError) := by simp [Cli.send, h]

/-- **C29** From then on, whatever happens, every request raises RuntimeError, transmits nothing and changes neither the
client nor the local server's table; `disconnected()` tells so, and `close_server` returns True without transmitting
(`none` for the value True). -/
theorem C29_later_sends_fail (K : Codec) (name : Bytes) (ser : Ser) (es es' : List CEv) (P : CliEnv) (w : Wire)
    (ho : ((Cli.init name ser).run K es).1.sockOpen = true) (h : Tells P ((Cli.init name ser).run K es).1 w) :
    let c := ((((Cli.init name ser).run K es).1.step K (.recv P w)).1.run K es').1
    (∀ E t a o rt sy, c.send K E t a o rt sy = (t, c, none, .error .runtimeError)) ∧
    (∀ P' inbox, c.checkDisconnected P' inbox = (c, inbox, .ok true)) ∧
    (∀ E t P' inbox rt sy, c.closeServer K E t P' inbox rt sy = (t, c, inbox, none, .ok none)) ∧ c.table = [] := by
  have hi := run_inv (K := K) es (Cli.inv_init name ser)
  have hd := tells_disconnects (K := K) ho h
  have hi2 := run_inv (K := K) es' (step_inv (K := K) (.recv P w) hi)
  have hc := (run_const K es' (((Cli.init name ser).run K es).1.step K (.recv P w)).1).2.2 hd
  intro c
  have hc : c.disconnected = true := hc
  refine ⟨fun E t a o rt sy => send_disconnected hc .., fun P' inbox => by simp [Cli.checkDisconnected, hc], ?_, hi2.disc hc⟩
  intro E t P' inbox rt sy
  simp [Cli.closeServer, Cli.checkDisconnected, hc]

/-! ## C30 -/

/-- **C30** A request whose options cannot be serialized raises that error and transmits nothing; except that the request
id is used up nothing in the client changes. -/
theorem C30_unserializable (K : Codec) (E : SendEnv) (t t' : Refs) (c : Cli) (a : String) (v : Val) (rt sy : String)
    (e : Exc) (hd : c.disconnected = false) (he : c.ser.dumps E t v = (t', .error e)) :
    c.send K E t a (some v) rt sy = (t', { c with nextId := if sy = "off" then c.nextId else c.nextId + 1 }, none, .error e) := by
  unfold Cli.send
  rw [if_neg (by simp [hd])]
  by_cases h : sy = "off"
  · simp [h, he]
  · simp [h, he]

/-- **C30** Later requests are matched to their replies as usual: with the failed request in the history or not, the
futures and the table of the client are the same after it. -/
theorem C30_no_trace (K : Codec) (E : SendEnv) (t t' : Refs) (c : Cli) (a : String) (v : Val) (rt sy : String)
    (e : Exc) (hd : c.disconnected = false) (he : c.ser.dumps E t v = (t', .error e)) :
    let c' := (c.step K (.send E t a (some v) rt sy)).1
    c'.futs = c.futs ∧ c'.table = c.table ∧ c'.disconnected = c.disconnected ∧ c.log K [.send E t a (some v) rt sy] = [] ∧
    (c.step K (.send E t a (some v) rt sy)).2 = [.sent (.error e)] := by
  have h := C30_unserializable K E t t' c a v rt sy e hd he
  simp [Cli.step, Cli.log, h]

/-! ## C31 -/

/-- **C31 does not hold**: with a serializable request, every sync value that is none of the three known ones makes the
client transmit the request, and only then raise ValueError. -/
theorem C31_invalid_sync_is_sent (K : Codec) (E : SendEnv) (t t' : Refs) (c : Cli) (a : String) (v : Val) (rt sy : String)
    (w : Wire) (hd : c.disconnected = false) (ho : c.sockOpen = true) (he : c.ser.dumps E t v = (t', .ok w))
    (h1 : sy ≠ "off") (h2 : sy ≠ "async") (h3 : sy ≠ "sync") :
    c.send K E t a (some v) rt sy = (t', { c with nextId := c.nextId + 1 },
      some [K.num c.nextId, K.text a, K.text rt, K.text c.ser.name, K.tree c.ser w], .error .valueError) := by
  unfold Cli.send
  rw [if_neg (by simp [hd])]
  simp [he, h1, h2, h3, ho]

/-- **C31, what holds**: such a request always raises, and leaves no future and no table entry, so its reply will be ignored.
Missing: that nothing is transmitted, which is false. -/
theorem C31_invalid_sync_raises_partial (K : Codec) (E : SendEnv) (t : Refs) (c : Cli) (a : String) (o : Option Val)
    (rt sy : String) (h1 : sy ≠ "off") (h2 : sy ≠ "async") (h3 : sy ≠ "sync") :
    let r := c.send K E t a o rt sy
    (∃ e, r.2.2.2 = .error e) ∧ (r.2.2.1 ≠ none → r.2.2.2 = .error .valueError) ∧ r.2.1.futs = c.futs ∧ r.2.1.table = c.table := by
  have hc := send_cases K E t c a o rt sy
  intro r
  show (∃ e, (c.send K E t a o rt sy).2.2.2 = .error e) ∧ ((c.send K E t a o rt sy).2.2.1 ≠ none → (c.send K E t a o rt sy).2.2.2 = .error .valueError) ∧
    (c.send K E t a o rt sy).2.1.futs = c.futs ∧ (c.send K E t a o rt sy).2.1.table = c.table
  generalize (c.send K E t a o rt sy).2.1 = c' at *
  generalize (c.send K E t a o rt sy).2.2.1 = m at *
  generalize (c.send K E t a o rt sy).2.2.2 = r' at *
  cases hc with
  | disconnected _ => exact ⟨⟨_, rfl⟩, by simp, rfl, rfl⟩
  | failed _ => exact ⟨⟨_, rfl⟩, by simp, rfl, rfl⟩
  | off _ _ h => exact absurd h h1
  | sent _ _ _ _ h => exact absurd h (by simp [h2, h3])
  | invalid _ _ _ _ _ => exact ⟨⟨_, rfl⟩, by simp, rfl, rfl⟩

end Verif
