import Verif.Props.System
/-! # Lemmas about the end of a server -/
namespace Verif

/-! ## Messages in order -/

/-- the messages read in a client's history -/
def recvs (es : List CEv) : List Wire := es.filterMap fun e => match e with
  | .recv _ w => some w
  | _ => none

theorem recvs_append (a b : List CEv) : recvs (a ++ b) = recvs a ++ recvs b := by simp [recvs]

theorem mem_recvs {w : Wire} {es : List CEv} : w ∈ recvs es ↔ ∃ P, .recv P w ∈ es := by
  simp only [recvs, List.mem_filterMap]
  constructor
  · rintro ⟨e, he, h⟩
    cases e <;> simp only [reduceCtorEq, Option.some.injEq] at h
    subst h; exact ⟨_, he⟩
  · rintro ⟨P, h⟩; exact ⟨_, h, rfl⟩

theorem cliEvs_recvs {s : Sys} {n : Bytes} {e : SEv} (h : ∀ P w, s.cliEvs n e ≠ [.recv P w]) : recvs (s.cliEvs n e) = [] := by
  revert h
  cases e <;> simp only [Sys.cliEvs] <;> (repeat' split) <;> simp [recvs]

/-- what was sent to a client was read by it, in order, unless messages are lost or still under way -/
theorem down_fifo {K : Codec} {n : Bytes} : ∀ {es : List SEv} {s : Sys}, SInv K s → (∀ e ∈ es, ∀ H, e.heap? = some H → Fits K H) →
    (∀ i, SEv.loseDown n i ∉ es) →
    (s.down n).map (·.2) ++ (sentTo n (s.outs K es)).map (·.2) = recvs (s.cliHist K n es) ++ ((s.run K es).down n).map (·.2)
  | [], s, _, _, _ => by simp [Sys.cliHist, recvs, Sys.run, outs_nil, sentTo]
  | e :: es, s, hi, hf, hl => by
    simp only [List.mem_cons, not_or] at hl
    have ih := down_fifo (hi.step (hf e List.mem_cons_self)) (fun e he => hf e (List.mem_cons_of_mem _ he)) (fun i => (hl i).2)
    have hrun : s.run K (e :: es) = (s.step K e).run K es := rfl
    have hcl : s.cliHist K n (e :: es) = s.cliEvs n e ++ (s.step K e).cliHist K n es := rfl
    rw [outs_cons, sentTo_append, List.map_append, hrun, hcl, recvs_append, List.append_assoc, ← ih]
    rcases down_step (K := K) e n (s := s) with ⟨i, h1, _⟩ | ⟨_, h2, h3⟩ | ⟨P, junk, ser, w, _, _, h2, h3, h4⟩
    · exact absurd h1.symm (hl i).1
    · rw [h3, cliEvs_recvs h2, List.map_append]; simp
    · rw [h2, h3, h4]
      have hser := hi.down n (ser, w) (by rw [h2]; exact List.mem_cons_self)
      simp only at hser
      simp [recvs, sentTo, hser]

/-- the system step in which a client reads a message -/
theorem cliHist_split {K : Codec} {n : Bytes} : ∀ {es : List SEv} {s : Sys} {a : List CEv} {P w b}, s.cliHist K n es = a ++ .recv P w :: b →
    ∃ es1 e es2, es = es1 ++ e :: es2 ∧ s.cliHist K n es1 = a ∧ (s.run K es1).cliEvs n e = [.recv P w]
  | [], s, a, P, w, b, h => by simp [Sys.cliHist] at h
  | e :: es, s, a, P, w, b, h => by
    simp only [Sys.cliHist] at h
    have h1 : s.cliEvs n e = [] ∨ ∃ ce, s.cliEvs n e = [ce] := by
      cases e <;> simp only [Sys.cliEvs] <;> (repeat' split) <;> simp
    rcases h1 with h1 | ⟨ce, h1⟩
    · rw [h1, List.nil_append] at h
      obtain ⟨es1, e', es2, rfl, h3, h4⟩ := cliHist_split h
      exact ⟨e :: es1, e', es2, rfl, by simp only [Sys.cliHist, h1, h3, List.nil_append], h4⟩
    · rw [h1] at h
      cases a with
      | nil =>
        simp only [List.nil_append, List.singleton_append, List.cons.injEq] at h
        exact ⟨[], e, es, rfl, rfl, by show s.cliEvs n e = _; rw [h1, h.1]⟩
      | cons x a =>
        simp only [List.singleton_append, List.cons_append, List.cons.injEq] at h
        obtain ⟨rfl, h⟩ := h
        obtain ⟨es1, e', es2, rfl, h3, h4⟩ := cliHist_split h
        exact ⟨e :: es1, e', es2, rfl, by simp only [Sys.cliHist, h1, h3, List.singleton_append], h4⟩

/-- everything under way was sent -/
theorem down_sent {K : Codec} {n : Bytes} : ∀ {es : List SEv} {s : Sys} {p}, p ∈ (s.run K es).down n → p ∈ s.down n ∨ p ∈ sentTo n (s.outs K es)
  | [], _, _, h => .inl h
  | e :: es, s, p, h => by
    rw [outs_cons, sentTo_append, List.mem_append]
    rcases down_sent (es := es) (s := s.step K e) h with h1 | h1
    · rcases down_step (K := K) e n (s := s) with ⟨_, _, h2, _⟩ | ⟨_, _, h2⟩ | ⟨P, junk, ser, w, _, _, h2, _⟩
      · rw [h2] at h1; exact .inl (List.mem_of_mem_eraseIdx h1)
      · rw [h2] at h1
        rcases List.mem_append.1 h1 with h1 | h1
        · exact .inl h1
        · exact .inr (.inl h1)
      · exact .inl (by rw [h2]; exact List.mem_cons_of_mem _ h1)
    · exact .inr (.inr h1)

/-! ## Clients -/

theorem disconnected_step {K : Codec} {c : Cli} (e : CEv) (h : c.disconnected = true) : (c.step K e).1.disconnected = true := by
  cases e with
  | drop k => exact h
  | close => exact h
  | send E t a o rt sy =>
    simp only [Cli.step]
    rw [show c.send K E t a o rt sy = (t, c, none, .error .runtimeError) from by simp [Cli.send, h]]
    exact h
  | recv P w =>
    simp only [Cli.step, Cli.receive]
    split
    · exact h
    · split
      · exact h
      · rename_i msg _
        have hc := processMsg_cases P c msg
        generalize (c.processMsg P msg).1 = c' at hc ⊢
        generalize (c.processMsg P msg).2 = r at hc
        cases hc with
        | ignored _ _ _ => exact h
        | lost _ _ _ _ _ => exact h
        | set _ _ _ _ _ => exact h
        | closed _ _ _ _ => rfl
        | disconnect _ _ => rfl

theorem disconnected_run {K : Codec} : ∀ (es : List CEv) {c : Cli}, c.disconnected = true → (c.run K es).1.disconnected = true
  | [], _, h => h
  | e :: es, _, h => disconnected_run es (disconnected_step e h)

theorem disconnected_new {K : Codec} {c : Cli} {e : CEv} (h : c.disconnected = false) (h' : (c.step K e).1.disconnected = true) :
    ∃ P w, e = .recv P w ∧ Tells P c w := by
  cases e with
  | drop k => rw [show (c.step K (.drop k)).1.disconnected = c.disconnected from rfl, h] at h'; simp at h'
  | close => rw [show (c.step K .close).1.disconnected = c.disconnected from rfl, h] at h'; simp at h'
  | send E t a o rt sy =>
    exfalso
    have hc := send_cases K E t c a o rt sy
    have hs : (c.step K (.send E t a o rt sy)).1 = (c.send K E t a o rt sy).2.1 := rfl
    rw [hs] at h'
    generalize (c.send K E t a o rt sy).2.1 = c' at *
    generalize (c.send K E t a o rt sy).2.2.1 = m at *
    generalize (c.send K E t a o rt sy).2.2.2 = r at *
    cases hc with
    | disconnected _ => rw [h] at h'; simp at h'
    | failed _ => simp [h] at h'
    | off _ _ _ => rw [h] at h'; simp at h'
    | sent _ _ _ _ _ => simp [h] at h'
    | invalid _ _ _ _ _ => simp [h] at h'
  | recv P w =>
    refine ⟨P, w, rfl, ?_⟩
    simp only [Cli.step, Cli.receive] at h'
    split at h'
    · rw [h] at h'; simp at h'
    · split at h'
      · rw [h] at h'; simp at h'
      · rename_i msg hm
        have hc := processMsg_cases P c msg
        generalize (c.processMsg P msg).1 = c' at hc h'
        generalize (c.processMsg P msg).2 = r at hc
        cases hc with
        | ignored _ _ _ => rw [h] at h'; simp at h'
        | lost _ _ _ _ _ => simp [h] at h'
        | set _ _ _ _ _ => simp [h] at h'
        | @closed d k hd h1 h2 h3 => subst hd; exact ⟨d, hm, .inr ⟨k, h1, h3, h2⟩⟩
        | @disconnect d hd h1 => subst hd; exact ⟨d, hm, .inl h1⟩

theorem disconnected_origin {K : Codec} : ∀ {es : List CEv} {c : Cli}, c.disconnected = false → (c.run K es).1.disconnected = true →
    ∃ a P w b, es = a ++ .recv P w :: b ∧ Tells P (c.run K a).1 w
  | [], c, h, h' => by rw [show (c.run K []).1 = c from rfl, h] at h'; simp at h'
  | e :: es, c, h, h' => by
    cases hd : (c.step K e).1.disconnected with
    | true =>
      obtain ⟨P, w, rfl, ht⟩ := disconnected_new h hd
      exact ⟨[], P, w, es, rfl, ht⟩
    | false =>
      obtain ⟨a, P, w, b, rfl, ht⟩ := disconnected_origin (es := es) hd h'
      exact ⟨e :: a, P, w, b, rfl, ht⟩

/-- only a disconnected client has futures that are gone -/
theorem gone_step {K : Codec} {c : Cli} (hi : c.Inv) (hg : ∀ k, c.fut k = some .gone → c.disconnected = true) (e : CEv) (k : Nat)
    (h : (c.step K e).1.fut k = some .gone) : (c.step K e).1.disconnected = true := by
  cases hc : c.fut k with
  | none => rcases fut_none_step (K := K) hi e k hc with h1 | h1 <;> (rw [h1] at h; simp at h)
  | some f =>
    rcases fut_step (K := K) hi e k hc with h1 | ⟨_, h1⟩ | ⟨_, P, w, d, rfl, hr, ⟨f', _, h2, h3⟩ | ⟨h2, h3⟩⟩
    · rw [h] at h1; simp only [Option.some.injEq] at h1
      exact disconnected_step e (hg k (by rw [hc, ← h1]))
    · rw [h] at h1; simp at h1
    · rw [h] at h3; simp only [Option.some.injEq] at h3; subst h3; exact h2.elim
    · cases ho : c.sockOpen with
      | true => exact tells_disconnects ho ⟨d, hr, h2⟩
      | false =>
        have : (c.step K (.recv P w)).1 = c := by simp [Cli.step, Cli.receive, ho]
        rw [this] at h ⊢
        exact hg k h

theorem gone_run {K : Codec} : ∀ (es : List CEv) {c : Cli}, c.Inv → (∀ k, c.fut k = some .gone → c.disconnected = true) →
    ∀ k, (c.run K es).1.fut k = some .gone → (c.run K es).1.disconnected = true
  | [], _, _, h => h
  | e :: es, c, hi, h => gone_run es (step_inv e hi) (fun k hk => gone_step hi h e k hk)

theorem sockOpen_step {K : Codec} {c : Cli} {e : CEv} (h : e ≠ .close) : (c.step K e).1.sockOpen = c.sockOpen := by
  cases e with
  | drop k => rfl
  | close => exact absurd rfl h
  | send E t a o rt sy => exact (send_const K E t c a o rt sy).2.2.2
  | recv P w => exact (receive_const P c w).2.2.2.1

theorem sockOpen_run {K : Codec} : ∀ {es : List CEv} {c : Cli}, .close ∉ es → (c.run K es).1.sockOpen = c.sockOpen
  | [], _, _ => rfl
  | e :: es, c, h => by
    simp only [List.mem_cons, not_or] at h
    show ((c.step K e).1.run K es).1.sockOpen = _
    rw [sockOpen_run h.2, sockOpen_step (Ne.symm h.1)]

/-- a future is only made when its request is sent -/
theorem fut_held {K : Codec} {k : Nat} : ∀ {es : List CEv} {c : Cli}, c.Inv → k < c.nextId → (c.run K es).1.fut k ≠ none → c.fut k ≠ none
  | [], _, _, _, h => h
  | e :: es, c, hi, hk, h => by
    have hn : c.nextId ≤ (c.step K e).1.nextId := (asked_ids K [e] c).2.1
    have h1 := fut_held (es := es) (c := (c.step K e).1) (step_inv e hi) (by omega) h
    intro hc
    apply h1
    have ht : c.table.get? k = none := by
      cases h : c.table.get? k with
      | none => rfl
      | some b => have := hi.pend k b h; rw [Cli.fut] at hc; rw [hc] at this; simp at this
    cases e with
    | drop k' => simp only [Cli.step, Cli.drop, Cli.fut, Dict.get?_erase]; split; rfl; exact hc
    | close => exact hc
    | send E t a o rt sy =>
      have hsc := send_cases K E t c a o rt sy
      have hs : (c.step K (.send E t a o rt sy)).1 = (c.send K E t a o rt sy).2.1 := rfl
      rw [hs]
      clear h1 hn h hs
      generalize (c.send K E t a o rt sy).2.1 = c' at *
      generalize (c.send K E t a o rt sy).2.2.1 = m at *
      generalize (c.send K E t a o rt sy).2.2.2 = r at *
      cases hsc with
      | disconnected _ => exact hc
      | failed _ => split <;> exact hc
      | off _ _ _ => exact hc
      | sent _ _ _ _ _ =>
        simp only [Cli.fut, Dict.get?_set]
        rw [if_neg (by omega)]; exact hc
      | invalid _ _ _ _ _ => exact hc
    | recv P w =>
      rcases fut_none_step (K := K) hi (.recv P w) k hc with h2 | h2
      · exact h2
      · exfalso
        have := step_inv (K := K) (.recv P w) hi
        -- a message makes no future pending
        simp only [Cli.step, Cli.receive] at h2
        split at h2
        · rw [hc] at h2; simp at h2
        · split at h2
          · rw [hc] at h2; simp at h2
          · rename_i msg _
            have hmc := processMsg_cases P c msg
            generalize (c.processMsg P msg).1 = c' at hmc h2
            generalize (c.processMsg P msg).2 = r at hmc
            rw [Cli.fut] at hc
            cases hmc with
            | ignored _ _ _ => rw [Cli.fut, hc] at h2; simp at h2
            | lost _ _ _ _ _ => rw [Cli.fut, hc] at h2; simp at h2
            | set _ _ _ hs _ =>
              simp only [Cli.fut, Dict.get?_set] at h2
              split at h2
              · simp only [Option.some.injEq] at h2; subst h2; exact hs
              · rw [hc] at h2; simp at h2
            | closed _ _ _ _ =>
              simp only [Cli.fut, Cli.serverDisconnected, gone_get, Dict.get?_set] at h2
              split at h2
              · simp at h2
              · split at h2
                · simp at h2
                · rw [hc] at h2; simp at h2
            | disconnect _ _ =>
              simp only [Cli.fut, Cli.serverDisconnected, gone_get] at h2
              split at h2
              · simp at h2
              · rw [hc] at h2; simp at h2

/-- table entries come from requests -/
theorem table_asked {K : Codec} {k : Nat} {b : Bool} : ∀ {es : List CEv} {c : Cli}, (c.run K es).1.table.get? k = some b →
    c.table.get? k = some b ∨ ∃ q ∈ c.asked K es, q.id = k ∧ b = decide (q.action = "close")
  | [], _, h => .inl h
  | e :: es, c, h => by
    have hcons : c.asked K (e :: es) = c.asked K [e] ++ (c.step K e).1.asked K es := asked_append K [e] es c
    rcases table_asked (es := es) (c := (c.step K e).1) h with h1 | ⟨q, h1, h2⟩
    · cases e with
      | drop k' =>
        simp only [Cli.step, Cli.drop, Dict.get?_erase] at h1
        split at h1
        · simp at h1
        · exact .inl h1
      | close => exact .inl h1
      | send E t a o rt sy =>
        have hsc := send_cases K E t c a o rt sy
        have hs : (c.step K (.send E t a o rt sy)).1 = (c.send K E t a o rt sy).2.1 := rfl
        rw [hs] at h1
        have hasked : c.asked K [.send E t a o rt sy] = (match (c.send K E t a o rt sy).2.2.1 with
          | some _ => [⟨if sy = "off" then -1 else c.nextId, a, rt, c.ser, o.bind fun v => (c.ser.dumps E t v).2.toOption⟩]
          | none => []) := by
          simp only [Cli.asked]; cases (c.send K E t a o rt sy).2.2.1 <;> simp
        rw [hcons, hasked]
        clear h hs hcons hasked
        generalize (c.send K E t a o rt sy).2.1 = c' at hsc h1
        generalize (c.send K E t a o rt sy).2.2.1 = m at hsc ⊢
        generalize (c.send K E t a o rt sy).2.2.2 = r at hsc
        cases hsc with
        | disconnected _ => exact .inl h1
        | failed _ => exact .inl h1
        | off _ _ _ => exact .inl h1
        | sent _ _ hno _ _ =>
          simp only [Dict.get?_set] at h1
          split at h1
          · rename_i hk
            right
            refine ⟨_, List.mem_append_left _ List.mem_cons_self, ?_, ?_⟩
            · simp [hno, hk]
            · simp only [Option.some.injEq] at h1; exact h1.symm
          · exact .inl h1
        | invalid _ _ _ _ _ => exact .inl h1
      | recv P w =>
        left
        simp only [Cli.step, Cli.receive] at h1
        split at h1
        · exact h1
        · split at h1
          · exact h1
          · rename_i msg _
            have hmc := processMsg_cases P c msg
            generalize (c.processMsg P msg).1 = c' at hmc h1
            generalize (c.processMsg P msg).2 = r at hmc
            cases hmc with
            | ignored _ _ _ => exact h1
            | lost _ _ _ _ _ => simp only [Dict.get?_erase] at h1; split at h1; simp at h1; exact h1
            | set _ _ _ _ _ => simp only [Dict.get?_erase] at h1; split at h1; simp at h1; exact h1
            | closed _ _ _ _ => simp [Cli.serverDisconnected] at h1
            | disconnect _ _ => simp [Cli.serverDisconnected] at h1
    · exact .inr ⟨q, by rw [hcons]; exact List.mem_append_right _ h1, h2⟩

/-! ## The server's end -/

theorem closed_step {s : Srv} (h : s.closed = true) (e : Ev) : (s.step e).1.closed = true ∧ (s.step e).1.sockOpen = s.sockOpen := by
  cases e with
  | recv H parts => simp [Srv.step, h]
  | mkProxy H v kw => exact ⟨h, rfl⟩
  | publish H k v => simp only [Srv.step]; split <;> exact ⟨h, rfl⟩
  | ret H r =>
    simp only [Srv.step]
    split
    · exact ⟨h, rfl⟩
    · rename_i f st _
      obtain ⟨t, b, d, hf, _, hb⟩ := finish_state H { s with stack := st } f.caller f.reqId f.returnType false (f.task.result H r)
      refine ⟨by rw [finish_closed]; exact h, ?_⟩
      unfold Srv.finish
      have hr := respond_state H { s with stack := st } f.caller f.reqId f.returnType (f.task.result H r)
      obtain ⟨t, hr⟩ := hr
      generalize ({ s with stack := st } : Srv).respond H f.caller f.reqId f.returnType (f.task.result H r) = y at hr
      obtain ⟨s1, o, x⟩ := y
      simp only at hr
      subst hr
      cases x <;> rfl

theorem closed_run : ∀ (es : List Ev) {s : Srv}, s.closed = true → (s.run es).1.closed = true ∧ (s.run es).1.sockOpen = s.sockOpen
  | [], _, h => ⟨h, rfl⟩
  | e :: es, s, h => by
    obtain ⟨h1, h2⟩ := closed_step h e
    obtain ⟨h3, h4⟩ := closed_run es h1
    exact ⟨h3, h4.trans h2⟩

theorem closing_split : ∀ {es : List Ev} {s : Srv}, s.closed = false → (s.run es).1.closed = true →
    ∃ pre e post, es = pre ++ e :: post ∧ (s.run pre).1.closed = false ∧ ((s.run pre).1.step e).1.closed = true
  | [], s, h, h' => by rw [show (s.run []).1 = s from rfl, h] at h'; simp at h'
  | e :: es, s, h, h' => by
    cases hd : (s.step e).1.closed with
    | true => exact ⟨[], e, es, rfl, h, hd⟩
    | false =>
      obtain ⟨pre, e', post, rfl, h1, h2⟩ := closing_split (es := es) hd h'
      exact ⟨e :: pre, e', post, rfl, h1, h2⟩

/-- the closing step carries out a close request -/
theorem closing_request {s : Srv} {e : Ev} (h : s.closed = false) (h' : (s.step e).1.closed = true) :
    ∃ H parts c m ser opts, e = .recv H parts ∧ s.Serving ∧ readOne H parts = .ok (c, m) ∧ m.action = "close" ∧ serOf m.serType = some ser ∧
      H.utf8 c ≠ none ∧ m.payload H s ser = .ok opts := by
  have hc := step_cases s e
  generalize (s.step e).1 = s' at hc h'
  generalize (s.step e).2 = os at hc
  cases hc with
  | idle _ _ _ hcl _ _ _ => rw [hcl, h] at h'; simp at h'
  | start _ _ _ _ _ _ => simp [h] at h'
  | refused _ _ _ => rw [finish_closed] at h'; simp [h] at h'
  | ended _ => rw [finish_closed] at h'; simp [h] at h'
  | @answered H parts c m ser opts s1 o r hs hr hser hu hp ha =>
    rw [finish_closed] at h'
    refine ⟨H, parts, c, m, ser, opts, rfl, hs, hr, ?_, hser, hu, hp⟩
    have hst := action_state H { s with clients := s.clients.set c m.serType } c m.action opts
    rw [ha] at hst
    obtain ⟨⟨t, n, b1, b2, h9, h10, _⟩, _⟩ := hst
    apply Classical.byContradiction
    intro hn
    rw [h9] at h'
    simp only [(h10 hn).1, h] at h'
    simp at h'

theorem respond_error_nil (H : Heap) (s : Srv) (c k rt r) (h : (s.respond H c k rt r).2.2 ≠ none) : (s.respond H c k rt r).2.1 = [] := by
  unfold Srv.respond at h ⊢
  split at h
  · rename_i hk
    rw [if_pos hk]
    cases r with
    | ok v =>
      simp only at h ⊢
      generalize s.convert H rt v = x at h ⊢
      obtain ⟨s1, v1⟩ := x
      simp only at h ⊢
      generalize s1.sendResult H c k v1 .none = y at h ⊢
      obtain ⟨s2, y⟩ := y
      cases y with
      | ok o => simp at h
      | error e =>
        simp only at h ⊢
        generalize s2.sendError H c k e = z at h ⊢
        obtain ⟨s3, z⟩ := z
        cases z with
        | ok o => simp at h
        | error e => rfl
    | error e =>
      simp only at h ⊢
      generalize s.sendError H c k e = z at h ⊢
      obtain ⟨s3, z⟩ := z
      cases z with
      | ok o => simp at h
      | error e => rfl
  · cases r <;> simp at h

theorem finish_sends_closes {H : Heap} {s : Srv} {c k rt r c' ser w} (h : .send c' ser w ∈ (s.finish H c k rt true r).2) :
    (s.finish H c k rt true r).1.sockOpen = false := by
  unfold Srv.finish at h ⊢
  have hn := respond_error_nil H s c k rt r
  generalize s.respond H c k rt r = y at hn h ⊢
  obtain ⟨s1, o, x⟩ := y
  cases x with
  | none => rfl
  | some e =>
    simp only at hn h
    rw [hn (by simp)] at h
    simp at h

/-! ## Replies as they are read -/

theorem loads_disconnect (ser : Ser) (R : RecvEnv) : ser.loads R disconnectWire = .ok (.dict [(.str "action", .str "disconnect")]) := by
  cases ser <;> rfl

/-- what is read from a reply is a message a server sends, and a reply to the same request -/
theorem replyOf_serverMsg {L : Lib} {H : Heap} {s : Srv} {c0 rt r k ser w t} {R : RecvEnv} {v} (hr : ReplyOf H c0 s rt r k ser w t)
    (hlink : Link L (s.sendEnv H) R) (hlive : LiveTable H s.refs) (hl : ser.loads R w = .ok v) :
    ∃ rv ev d, v = .dict d ∧ Val.dict d = replyDict k rv ev ∧ ServerMsg d := by
  have hL : (s.sendEnv H).lib.Laws := hlink.sender ▸ hlink.laws
  have hR : R.lib = (s.sendEnv H).lib := hlink.receiver.trans hlink.sender.symm
  have hty : Ty.int ∈ (s.sendEnv H).tys := hlink.types _ (by decide)
  rcases hr with ⟨v, rfl, hd⟩ | ⟨x, t1, _, hd, hx⟩
  · obtain ⟨rv, ev, hm, he⟩ := loads_reply hL hR hty hd hl
    have he := he rfl
    subst he
    refine ⟨rv, .none, _, hm, rfl, .inr ⟨?_, ⟨k, ?_⟩, ⟨rv, ?_⟩, .inl ?_⟩⟩ <;> simp [lookupStr]
  · have hlive1 : LiveTable H t1 := by
      rcases hx with ⟨_, rfl⟩ | ⟨v, _, hv⟩
      · exact hlive
      · refine hlive.path ?_
        have h1 := convert_path H s rt v
        have h2 := dumps_grows (path_grows H s) ser (s.convert H rt v).1.refs (replyDict k (s.convert H rt v).2 .none)
        rw [hv] at h2
        exact h1.trans h2
    obtain ⟨h0, hr0, ha0⟩ := hlive1.ok s
    obtain ⟨rv', ev', h8, _, h9⟩ := dumps_arrives hlink hr0 ha0 (none_sendable ser R) (error_sendable ser R x.name (H.transcript c0 k)) hd
    rw [hl] at h8
    simp only [Except.ok.injEq] at h8
    have h9 := error_arrives h9
    subst h9
    refine ⟨rv', _, _, h8, rfl, .inr ⟨?_, ⟨k, ?_⟩, ⟨rv', ?_⟩, .inr ⟨.str x.name, .list ((H.transcript c0 k).map .str), ?_⟩⟩⟩ <;>
      cases ser <;> simp [lookupStr, Ser.pair]

theorem World.prefix {K L idOf srv sers a b} (W : World K L idOf srv sers (a ++ b)) : World K L idOf srv sers a where
  laws := W.laws
  types := W.types
  fits e he := W.fits e (List.mem_append_left _ he)
  lib e he := W.lib e (List.mem_append_left _ he)
  read n P junk he := W.read n P junk (List.mem_append_left _ he)
  live := by
    have := W.live
    rw [srvHist_append] at this
    exact (liveRun_append _ _ _ this).1
  small n E t x o rt sy w he := W.small n E t x o rt sy w (List.mem_append_left _ he)

/-- an answered close request closes the socket -/
theorem close_answered {s : Srv} {H : Heap} {parts c m ser w} (hc' : (s.step (.recv H parts)).1.closed = false)
    (hr : readOne H parts = .ok (c, m)) (ha : m.action = "close") (hsend : .send c ser w ∈ (s.step (.recv H parts)).2) :
    (s.step (.recv H parts)).1.sockOpen = false := by
  have hc := step_cases s (.recv H parts)
  generalize (s.step (.recv H parts)).1 = s' at hc hc' ⊢
  generalize (s.step (.recv H parts)).2 = os at hc hsend
  cases hc with
  | idle h1 _ _ _ _ _ _ =>
    obtain ⟨y, hy⟩ := h1 _ hsend
    simp at hy
  | start _ hr' _ _ _ hact =>
    rw [hr] at hr'
    simp only [Except.ok.injEq, Prod.mk.injEq] at hr'
    obtain ⟨rfl, rfl⟩ := hr'
    rw [ha] at hact
    simp [Srv.action] at hact
  | refused _ hr' _ =>
    rw [hr] at hr'
    simp only [Except.ok.injEq, Prod.mk.injEq] at hr'
    obtain ⟨rfl, rfl⟩ := hr'
    simp only [List.mem_cons, reduceCtorEq, false_or] at hsend
    simp only [ha, decide_true] at hsend ⊢
    exact finish_sends_closes hsend
  | @answered H parts c m ser opts s1 o r hs hr' hser hu hp hact =>
    rw [hr] at hr'
    simp only [Except.ok.injEq, Prod.mk.injEq] at hr'
    obtain ⟨rfl, rfl⟩ := hr'
    rw [finish_closed] at hc'
    exfalso
    rw [ha] at hact
    simp only [Srv.action, Started.finished.injEq] at hact
    rw [← hact.1] at hc'
    unfold Srv.closeAction at hc'
    simp only at hc'
    split at hc'
    · simp at hc'
    · split at hc' <;> simp at hc'

/-- only one request is completed in a step -/
theorem completes_read {s : Srv} {H : Heap} {parts c k rt r s1} (h : Completes s (.recv H parts) c k rt r s1) :
    ∃ m, readOne H parts = .ok (c, m) ∧ m.reqId = k ∧ m.returnType = rt := by
  rcases h with ⟨o, a, st, b, ser, opts, h, _⟩ | ⟨H', parts', m, x, ser, he, _, hr, hk, hrt, _⟩
  · exact ⟨_, h, rfl, rfl⟩
  · simp only [Ev.recv.injEq] at he
    obtain ⟨rfl, rfl⟩ := he
    exact ⟨m, hr, hk, hrt⟩

theorem action_close_finished (H : Heap) (s : Srv) (c : Bytes) (opts : Val) (s' o task) :
    s.action H c "close" opts ≠ .running s' o task := by simp [Srv.action]

/-- a request completed was read before or in this step; close requests are completed when they are read -/
theorem completes_request {srv : Srv} (h0 : srv.stack = []) {pre : List Ev} {e : Ev} {c k rt r s1}
    (h : Completes (srv.run pre).1 e c k rt r s1) : ∃ H0 parts m, .recv H0 (c :: parts) ∈ pre ++ [e] ∧
      readOne H0 (c :: parts) = .ok (c, m) ∧ m.reqId = k ∧ m.returnType = rt ∧ (m.action = "close" → e = .recv H0 (c :: parts)) := by
  cases e with
  | recv H parts =>
    obtain ⟨m, hr, hk, hrt⟩ := completes_read h
    have hparts : ∃ ps, parts = c :: ps := by
      cases parts with
      | nil => simp [readOne] at hr
      | cons p ps => exact ⟨ps, by rw [readOne_name hr]⟩
    obtain ⟨ps, rfl⟩ := hparts
    exact ⟨H, ps, m, by simp, hr, hk, hrt, fun _ => rfl⟩
  | ret H r0 =>
    rcases h with ⟨o, task, st, h2, rfl, rfl, _⟩ | ⟨H', parts', m, x, ser, he, _⟩
    · have hsuf : (⟨c, k, rt, task⟩ : Frame) :: st <:+ (srv.run pre).1.stack := by rw [h2]; exact List.suffix_refl _
      rcases stack_origin hsuf with h3 | ⟨p, H0, parts, mid, rfl, h3, h4, h5⟩
      · have := h3 [] pre rfl
        simp only [Srv.run, h0] at this
        simp at this
      · obtain ⟨a, st', b, ser, opts, o, g1, _, _, _, g2⟩ := id h4
        refine ⟨H0, parts, _, by simp, g1, rfl, rfl, ?_⟩
        intro ha
        simp only at ha
        subst ha
        exact absurd g2 (action_close_finished _ _ _ _ _ _ _)
    · simp at he
  | publish H n v => rcases h with ⟨o, h⟩ | ⟨H', parts', m, x, ser, he, _⟩; exact h.elim; simp at he
  | mkProxy H v kw => rcases h with ⟨o, h⟩ | ⟨H', parts', m, x, ser, he, _⟩; exact h.elim; simp at he

theorem broadcast_not_caller (c : Bytes) (ser : Ser) (w : Wire) : ∀ cs : List (Bytes × String), .send c ser w ∉ (broadcast c cs).1
  | [] => by simp [broadcast]
  | (c', st) :: cs => by
    have ih := broadcast_not_caller c ser w cs
    simp only [broadcast]
    split
    · exact ih
    · rename_i hne
      split
      · simp
      · generalize broadcast c cs = y at ih ⊢
        obtain ⟨o, e⟩ := y
        simp only [List.mem_cons, Out.send.injEq, not_or]
        exact ⟨fun h => hne h.1.symm, ih⟩

theorem action_not_caller {H : Heap} {s : Srv} {c a opts s1 o r} (h : s.action H c a opts = .finished s1 o r) (ser : Ser) (w : Wire) :
    .send c ser w ∉ o := by
  by_cases ha : a = "close"
  · subst ha
    simp only [Srv.action, Started.finished.injEq] at h
    have hb := broadcast_not_caller c ser w s.clients
    unfold Srv.closeAction at h
    simp only at h
    generalize broadcast c s.clients = y at hb h
    obtain ⟨o', e⟩ := y
    cases e with
    | error e => simp only at h; rw [← h.2.1]; exact hb
    | ok u =>
      simp only at h
      split at h <;> (simp only at h; rw [← h.2.1]; exact hb)
  · have := action_state H s c a opts
    rw [h] at this
    obtain ⟨⟨t, n, b1, b2, _, h1, _⟩, _⟩ := this
    rw [(h1 ha).2.2]; simp

theorem action_no_done {H : Heap} {s : Srv} {c a opts s1 o r} (h : s.action H c a opts = .finished s1 o r) (c' k x) :
    .done c' k x ∉ o := by
  have := action_state H s c a opts
  rw [h] at this
  intro hm
  have := this.2 _ hm
  simp [Out.neutral] at this

/-- the request a step can complete -/
def Owner (s : Srv) (e : Ev) (c : Bytes) (k : Int) : Prop := match e with
  | .recv H parts => ∃ m, readOne H parts = .ok (c, m) ∧ m.reqId = k
  | .ret _ _ => ∃ rt t st, s.stack = ⟨c, k, rt, t⟩ :: st
  | _ => False

theorem Owner.unique {s e c k c' k'} (h : Owner s e c k) (h' : Owner s e c' k') : c = c' ∧ k = k' := by
  cases e with
  | recv H parts =>
    obtain ⟨m, h1, h2⟩ := h
    obtain ⟨m', h1', h2'⟩ := h'
    rw [h1] at h1'
    simp only [Except.ok.injEq, Prod.mk.injEq] at h1'
    obtain ⟨rfl, rfl⟩ := h1'
    exact ⟨rfl, h2.symm.trans h2'⟩
  | ret H r =>
    obtain ⟨_, _, _, h⟩ := h
    obtain ⟨_, _, _, h'⟩ := h'
    rw [h] at h'
    simp only [List.cons.injEq, Frame.mk.injEq] at h'
    exact ⟨h'.1.1, h'.1.2.1⟩
  | publish _ _ _ => exact h.elim
  | mkProxy _ _ _ => exact h.elim

theorem Completes.owner {s e c k rt r s1} (h : Completes s e c k rt r s1) : Owner s e c k := by
  cases e with
  | recv H parts =>
    obtain ⟨m, h1, h2, _⟩ := completes_read h
    exact ⟨m, h1, h2⟩
  | ret H r0 =>
    rcases h with ⟨o, task, st, h2, rfl, rfl, _⟩ | ⟨H', parts', m, x, ser, he, _⟩
    · exact ⟨_, _, _, h2⟩
    · simp at he
  | publish H n v => rcases h with ⟨o, h⟩ | ⟨H', parts', m, x, ser, he, _⟩; exact h.elim; simp at he
  | mkProxy H v kw => rcases h with ⟨o, h⟩ | ⟨H', parts', m, x, ser, he, _⟩; exact h.elim; simp at he

theorem step_finish (s : Srv) (e : Ev) :
    ((∀ c k x, .done c k x ∉ (s.step e).2) ∧ ∀ c k, Owner s e c k → ∀ ser w, .send c ser w ∉ (s.step e).2) ∨
    ∃ (s1 : Srv) (H : Heap) (c : Bytes) (k : Int) (rt : String) (cl : Bool) (r : Except Exc Val) (front : List Out), (s.step e).2 = front ++ (s1.finish H c k rt cl r).2 ∧ (∀ c k x, .done c k x ∉ front) ∧
      (∀ ser w, .send c ser w ∉ front) ∧ Owner s e c k := by
  have hc := step_cases s e
  generalize (s.step e).1 = s' at hc
  generalize (s.step e).2 = os at hc ⊢
  cases hc with
  | idle ho _ _ _ _ _ _ =>
    refine .inl ⟨fun c k x h => ?_, fun c k _ ser w h => ?_⟩ <;> (obtain ⟨y, hy⟩ := ho _ h; simp at hy)
  | @start H parts c' m ser' opts o task _ hr _ _ _ ha =>
    have hst := action_state H { s with clients := s.clients.set c' m.serType } c' m.action opts
    rw [ha] at hst
    refine .inl ⟨fun c k x h => ?_, fun c k ho ser w h => ?_⟩
    · simp only [List.mem_cons, reduceCtorEq, false_or] at h
      have := hst.2.1 _ h
      simp [Out.neutral] at this
    · simp only [List.mem_cons, reduceCtorEq, false_or] at h
      revert ha
      unfold Srv.action
      repeat' split
      all_goals first
        | (intro h'; simp at h')
        | skip
      all_goals (obtain ⟨rfl, _⟩ := h'; simp at h)
  | @refused H parts c' m x hs hr hx =>
    refine .inr ⟨_, H, c', m.reqId, m.returnType, _, _, [_], rfl, ?_, ?_, ⟨m, hr, rfl⟩⟩ <;> simp
  | @answered H parts c' m ser' opts s1 o r hs hr hser hu hp ha =>
    refine .inr ⟨_, H, c', m.reqId, m.returnType, _, _, _ :: o, rfl, ?_, ?_, ⟨m, hr, rfl⟩⟩
    · intro c k x h
      simp only [List.mem_cons, reduceCtorEq, false_or] at h
      exact action_no_done ha _ _ _ h
    · intro ser w h
      simp only [List.mem_cons, reduceCtorEq, false_or] at h
      exact action_not_caller ha _ _ h
  | @ended H r0 c k rt task st h =>
    exact .inr ⟨_, H, c, k, rt, _, _, [], rfl, by simp, by simp, ⟨_, _, _, h⟩⟩

theorem sentTo_none {n : Bytes} {os : List Out} (h : ∀ ser w, .send n ser w ∉ os) : sentTo n os = [] := by
  cases hs : sentTo n os with
  | nil => rfl
  | cons p l =>
    have : p ∈ sentTo n os := by rw [hs]; exact List.mem_cons_self
    exact absurd (mem_sentTo.1 this) (h _ _)

/-- a completed request with a reply is the only message to its client in this step -/
theorem step_one_send {s : Srv} {e : Ev} {c k ser w} (ho : Owner s e c k) (hm : .send c ser w ∈ (s.step e).2) :
    sentTo c (s.step e).2 = [(ser, w)] ∧ .done c k none ∈ (s.step e).2 ∧ 0 ≤ k := by
  rcases step_finish s e with ⟨_, h⟩ | ⟨s1, H, c', k', rt, cl, r, front, h1, h2, h3, h4⟩
  · exact absurd hm (h c k ho ser w)
  · obtain ⟨rfl, rfl⟩ := ho.unique h4
    rw [h1] at hm ⊢
    rcases List.mem_append.1 hm with hm | hm
    · exact absurd hm (h3 _ _)
    · obtain ⟨_, hk, _, _, _, _, h5⟩ := finish_sends hm
      rw [h5, sentTo_append, sentTo_none h3]
      exact ⟨by simp [sentTo], by simp, hk⟩

/-- a request that ended normally was answered in the same step -/
theorem step_done_sent {s : Srv} {e : Ev} {c k} (hk : 0 ≤ k) (hm : .done c k none ∈ (s.step e).2) :
    Owner s e c k ∧ ∃ ser w, .send c ser w ∈ (s.step e).2 := by
  rcases step_finish s e with ⟨h, _⟩ | ⟨s1, H, c', k', rt, cl, r, front, h1, h2, h3, h4⟩
  · exact absurd hm (h c k none)
  · rw [h1] at hm ⊢
    rcases List.mem_append.1 hm with hm | hm
    · exact absurd hm (h2 _ _ _)
    · rcases finish_shape H s1 c' k' rt cl r with ⟨h5, _, ser, w, x, h6⟩ | ⟨h5, x, h6⟩ | ⟨h5, h6 | ⟨x, h6⟩⟩
      · rw [h6] at hm ⊢
        simp only [List.mem_cons, reduceCtorEq, Out.done.injEq, List.not_mem_nil, or_false, false_or] at hm
        obtain ⟨rfl, rfl, _⟩ := hm
        exact ⟨h4, ser, w, by simp⟩
      · rw [h6] at hm; simp at hm
      · rw [h6] at hm; simp at hm; omega
      · rw [h6] at hm; simp at hm; omega

/-- a message to the client whose request a step completes is the reply -/
theorem step_sends_owner {s : Srv} {e : Ev} {c k ser w} (ho : Owner s e c k) (h : .send c ser w ∈ (s.step e).2) :
    ∃ rt r s1, 0 ≤ k ∧ Completes s e c k rt r s1 ∧ ReplyOf e.heap c s1 rt r k ser w (s.step e).1.refs := by
  have hc := step_cases s e
  generalize (s.step e).1 = s' at *
  generalize (s.step e).2 = os at *
  cases hc with
  | idle ho _ _ _ _ _ _ => obtain ⟨y, hy⟩ := ho _ h; simp at hy
  | @start H parts c' m ser' opts o task _ _ _ _ _ ha =>
    exfalso
    simp only [List.mem_cons, reduceCtorEq, false_or] at h
    revert ha
    unfold Srv.action
    repeat' split
    all_goals first
      | (intro h'; simp at h')
      | skip
    all_goals (obtain ⟨rfl, _⟩ := h'; simp at h)
  | @refused H parts c' m x hs hr hx =>
    simp only [List.mem_cons, reduceCtorEq, false_or] at h
    obtain ⟨rfl, h1, h2, h3, h4, h5, h6⟩ := finish_sends h
    obtain ⟨_, rfl⟩ := ho.unique (e := .recv H parts) (s := s) ⟨m, hr, rfl⟩
    refine ⟨m.returnType, .error x, _, h1, .inr ⟨H, parts, m, x, ser, rfl, hs, hr, rfl, rfl, ?_, ?_, rfl, rfl⟩, h5⟩
    · simpa using h2
    · simp only [Dict.get?_set, if_true, Option.bind_some] at h2
      rcases hx with hx | hx | ⟨ser', hx, hx2⟩
      · rw [hx] at h2; simp at h2
      · exact absurd hx h3
      · rw [hx] at h2; simp only [Option.some.injEq] at h2; subst h2; exact hx2
  | @answered H parts c' m ser' opts s1 o r hs hr hser hu hp ha =>
    simp only [List.mem_cons, reduceCtorEq, false_or, List.mem_append] at h
    obtain ⟨rfl, rfl⟩ := ho.unique (e := .recv H parts) (s := s) ⟨m, hr, rfl⟩
    rcases h with h | h
    · exact absurd h (action_not_caller ha _ _)
    · obtain ⟨_, h1, h2, h3, h4, h5, h6⟩ := finish_sends h
      exact ⟨m.returnType, r, s1, h1, .inl ⟨o, m.action, m.serType, m.opts, ser', opts, hr, hs, hser, hu, hp, ha⟩, h5⟩
  | @ended H r0 c' k rt task st hst =>
    obtain ⟨rfl, rfl⟩ := ho.unique (e := .ret H r0) (s := s) ⟨_, _, _, hst⟩
    obtain ⟨_, h1, h2, h3, h4, h5, h6⟩ := finish_sends h
    exact ⟨rt, _, _, h1, .inl ⟨[], task, st, hst, rfl, rfl, rfl⟩, h5⟩

/-- the circumstances in which replies are read -/
structure Reads (L : Lib) (addr : String) (R : RecvEnv) : Prop where
  lib : R.lib = L
  server : ∀ a u, R.server = some (a, u) → a ≠ addr

section
variable {K : Codec} {L : Lib} {idOf : Obj → Nat} {addr : String} {tys : List Ty} {self : Val} {sers : Bytes → Ser} {es : List SEv}

theorem cli_init_eq (n : Bytes) : (Sys.init (Srv.init addr tys self) sers).cli n = Cli.init n (sers n) := rfl

/-- a reply answers a request of the client -/
theorem reply_of_completes (W : World K L idOf (Srv.init addr tys self) sers es) {pre e post n ser w k rt r s1}
    (hhist : (Sys.init (Srv.init addr tys self) sers).srvHist K es = pre ++ e :: post)
    (hmem : .send n ser w ∈ (((Srv.init addr tys self).run pre).1.step e).2)
    (hcomp : Completes ((Srv.init addr tys self).run pre).1 e n k rt r s1) :
    ∃ q, q ∈ (Sys.init (Srv.init addr tys self) sers).asked K es n ∧ q.id = k ∧ q.returnType = rt ∧
      (∀ R, Reads L addr R → Link L (s1.sendEnv e.heap) R) ∧ LiveTable e.heap s1.refs ∧
      ((((Srv.init addr tys self).run pre).1.step e).1.closed = false → q.action = "close" →
        (((Srv.init addr tys self).run pre).1.step e).1.sockOpen = false) := by
  have hpath := completes_state hcomp
  have hlive : LiveTable e.heap s1.refs := (live_at (by rw [← hhist]; exact W.live)).path hpath.1
  have hc := run_const_srv pre (Srv.init addr tys self)
  have he : e ∈ (Sys.init (Srv.init addr tys self) sers).srvHist K es := by rw [hhist]; simp
  obtain ⟨se, hse, hheap⟩ := srvHist_heap he
  obtain ⟨H0, parts, m, hin, hm, hmk, hmrt, hcl⟩ := completes_request (init_stack addr tys self) hcomp
  have hin' : Ev.recv H0 (n :: parts) ∈ (Sys.init (Srv.init addr tys self) sers).srvHist K es := by
    rw [hhist]
    rcases List.mem_append.1 hin with h | h
    · exact List.mem_append_left _ h
    · simp only [List.mem_singleton] at h; subst h; simp
  obtain ⟨n', q, hq, hqa⟩ := recv_asked (A := fun _ => []) W.fits (fun _ => rfl) hin'
  simp only [List.not_mem_nil, false_or] at hqa
  simp only [List.cons.injEq] at hq
  obtain ⟨rfl, rfl⟩ := hq
  obtain ⟨se0, hse0, hheap0⟩ := srvHist_heap hin'
  rw [readOne_parts (H := H0) (W.fits se0 hse0 H0 hheap0)] at hm
  simp only [Except.ok.injEq, Prod.mk.injEq, true_and] at hm
  subst hm
  simp only at hmk hmrt hcl
  refine ⟨q, hqa, hmk, hmrt, ?_, hlive, ?_⟩
  · intro R hR
    refine ⟨W.laws, W.lib se hse _ hheap, hR.lib, ?_, ?_⟩
    · intro ty hty
      simp only [Srv.sendEnv]
      rw [hpath.2.2, hc.1]; exact W.types ty hty
    · intro a u hu hs
      simp only [Srv.sendEnv, Option.some.injEq] at hs
      rw [hpath.2.1, hc.2] at hs
      exact hR.server a u hu hs.symm
  · intro hc2 ha
    have := hcl ha
    subst this
    exact close_answered hc2 (readOne_parts (W.fits se0 hse0 H0 hheap0) n q) ha hmem

/-- every message to a client answers a request of this client, or tells of the server's end -/
theorem reply_sent (W : World K L idOf (Srv.init addr tys self) sers es) {pre e post n ser w}
    (hhist : (Sys.init (Srv.init addr tys self) sers).srvHist K es = pre ++ e :: post)
    (hmem : .send n ser w ∈ (((Srv.init addr tys self).run pre).1.step e).2) :
    (w = disconnectWire ∧ (((Srv.init addr tys self).run pre).1.step e).1.closed = true) ∨
    ∃ k rt r s1 q, 0 ≤ k ∧ Completes ((Srv.init addr tys self).run pre).1 e n k rt r s1 ∧
      ReplyOf e.heap n s1 rt r k ser w (((Srv.init addr tys self).run pre).1.step e).1.refs ∧
      q ∈ (Sys.init (Srv.init addr tys self) sers).asked K es n ∧ q.id = k ∧ q.returnType = rt ∧
      (∀ R, Reads L addr R → Link L (s1.sendEnv e.heap) R) ∧ LiveTable e.heap s1.refs ∧
      ((((Srv.init addr tys self).run pre).1.step e).1.closed = false → q.action = "close" →
        (((Srv.init addr tys self).run pre).1.step e).1.sockOpen = false) := by
  have hwf : ((Srv.init addr tys self).run pre).1.clients.WF := run_wf (by simp [init_clients, Dict.WF]) pre
  obtain ⟨hser, h | ⟨k, rt, r, s1, hk, hcomp, hrep⟩⟩ := step_sends hwf hmem
  · exact .inl ⟨h.1, h.2.1⟩
  obtain ⟨q, h⟩ := reply_of_completes W hhist hmem hcomp
  exact .inr ⟨k, rt, r, s1, q, hk, hcomp, hrep, h⟩

theorem srvHist_split : ∀ {es : List SEv} {s : Sys} {a : List Ev} {e : Ev} {b : List Ev}, s.srvHist K es = a ++ e :: b →
    ∃ es1 se es2, es = es1 ++ se :: es2 ∧ s.srvHist K es1 = a ∧ (s.run K es1).srvEvs se = [e]
  | [], s, a, e, b, h => by simp [Sys.srvHist] at h
  | se :: es, s, a, e, b, h => by
    simp only [Sys.srvHist] at h
    have h1 : s.srvEvs se = [] ∨ ∃ x, s.srvEvs se = [x] := by
      cases se <;> simp only [Sys.srvEvs] <;> (repeat' split) <;> simp
    rcases h1 with h1 | ⟨x, h1⟩
    · rw [h1, List.nil_append] at h
      obtain ⟨es1, e', es2, rfl, h3, h4⟩ := srvHist_split h
      exact ⟨se :: es1, e', es2, rfl, by simp only [Sys.srvHist, h1, h3, List.nil_append], h4⟩
    · rw [h1] at h
      cases a with
      | nil =>
        simp only [List.nil_append, List.singleton_append, List.cons.injEq] at h
        exact ⟨[], se, es, rfl, rfl, by show s.srvEvs se = _; rw [h1, h.1]⟩
      | cons y a =>
        simp only [List.singleton_append, List.cons_append, List.cons.injEq] at h
        obtain ⟨rfl, h⟩ := h
        obtain ⟨es1, e', es2, rfl, h3, h4⟩ := srvHist_split h
        exact ⟨se :: es1, e', es2, rfl, by simp only [Sys.srvHist, h1, h3, List.singleton_append], h4⟩

theorem recvs_split {w : Wire} {B : List Wire} : ∀ {A : List Wire} {h : List CEv}, recvs h = A ++ w :: B →
    ∃ a P b, h = a ++ .recv P w :: b ∧ recvs a = A ∧ recvs b = B
  | A, [], hr => by simp [recvs] at hr
  | A, e :: h, hr => by
    have hskip : recvs (e :: h) = recvs h → ∃ a P b, e :: h = a ++ .recv P w :: b ∧ (recvs (e :: a.tail) = recvs a.tail → recvs a = A) ∧ recvs b = B := by
      intro heq
      rw [heq] at hr
      obtain ⟨a, P, b, rfl, h1, h2⟩ := recvs_split hr
      exact ⟨e :: a, P, b, rfl, fun h3 => by rw [← h1]; exact h3, h2⟩
    cases e with
    | recv P w' =>
      have hr' : w' :: recvs h = A ++ w :: B := hr
      cases A with
      | nil =>
        simp only [List.nil_append, List.cons.injEq] at hr'
        obtain ⟨rfl, rfl⟩ := hr'
        exact ⟨[], P, h, rfl, rfl, rfl⟩
      | cons x A =>
        simp only [List.cons_append, List.cons.injEq] at hr'
        obtain ⟨rfl, hr'⟩ := hr'
        obtain ⟨a, P', b, rfl, h1, h2⟩ := recvs_split hr'
        exact ⟨.recv P w' :: a, P', b, rfl, by rw [← h1]; rfl, h2⟩
    | drop k => obtain ⟨a, P, b, h1, h2, h3⟩ := hskip rfl; exact ⟨a, P, b, h1, h2 rfl, h3⟩
    | close => obtain ⟨a, P, b, h1, h2, h3⟩ := hskip rfl; exact ⟨a, P, b, h1, h2 rfl, h3⟩
    | send E t ac o rt sy => obtain ⟨a, P, b, h1, h2, h3⟩ := hskip rfl; exact ⟨a, P, b, h1, h2 rfl, h3⟩

/-- what a client reads was sent before -/
theorem read_causal (W : World K L idOf (Srv.init addr tys self) sers es) {n : Bytes} {a P w b}
    (h : (Sys.init (Srv.init addr tys self) sers).cliHist K n es = a ++ .recv P w :: b) :
    ∃ es1 es2, es = es1 ++ es2 ∧ (Sys.init (Srv.init addr tys self) sers).cliHist K n es1 = a ∧
      .send n (sers n) w ∈ (Sys.init (Srv.init addr tys self) sers).outs K es1 := by
  obtain ⟨es1, e, es2, rfl, h1, h2⟩ := cliHist_split h
  refine ⟨es1, e :: es2, rfl, h1, ?_⟩
  have hinv : SInv K ((Sys.init (Srv.init addr tys self) sers).run K es1) :=
    SInv.run (SInv.init (K := K) (init_clients addr tys self) sers) (fun e he => W.fits e (List.mem_append_left _ he))
  have hser : (((Sys.init (Srv.init addr tys self) sers).run K es1).cli n).ser = sers n := by rw [sys_run_ser]; rfl
  have : (sers n, w) ∈ ((Sys.init (Srv.init addr tys self) sers).run K es1).down n := by
    generalize (Sys.init (Srv.init addr tys self) sers).run K es1 = s at *
    rcases down_step (K := K) e n (s := s) with ⟨_, _, _, h3, _⟩ | ⟨_, h3, _⟩ | ⟨P', junk, ser, w', _, _, h3, h4, _⟩
    · rw [h2] at h3; simp at h3
    · exact absurd h2 (h3 P w)
    · rw [h3]
      have := hinv.down n (ser, w') (by rw [h3]; exact List.mem_cons_self)
      simp only at this
      rw [h2] at h4
      simp only [List.cons.injEq, CEv.recv.injEq, and_true] at h4
      rw [if_pos this] at h4
      rw [h4.2, ← hser, ← this]; exact List.mem_cons_self
  rcases down_sent this with h3 | h3
  · simp [Sys.init] at h3
  · exact mem_sentTo.1 h3

theorem reads_of (W : World K L idOf (Srv.init addr tys self) sers es) {n : Bytes} {P w}
    (h : .recv P w ∈ (Sys.init (Srv.init addr tys self) sers).cliHist K n es) : Reads L addr P.recv := by
  obtain ⟨junk, hj⟩ := cliHist_recv h
  obtain ⟨h1, h2⟩ := W.read n P junk hj
  exact ⟨h1, h2⟩

/-- clients of a server read only messages a server sends -/
theorem serverMsgs_of (W : World K L idOf (Srv.init addr tys self) sers es) (n : Bytes) :
    ServerMsgs (Cli.init n (sers n)) ((Sys.init (Srv.init addr tys self) sers).cliHist K n es) := by
  intro P w v hm hl
  have hR := reads_of W hm
  obtain ⟨a, b, hab⟩ := List.append_of_mem hm
  obtain ⟨es1, es2, rfl, h1, h2⟩ := read_causal W hab
  obtain ⟨pre, e, post, h3, h4⟩ := run_out_split h2
  rcases reply_sent W.prefix h3 h4 with ⟨rfl, _⟩ | ⟨k, rt, r, s1, q, _, _, hrep, _, _, _, hlink, hlive, _⟩
  · rw [loads_disconnect] at hl
    simp only [Except.ok.injEq] at hl
    exact ⟨_, hl.symm, .inl (by simp [IsDisconnect, lookupStr])⟩
  · obtain ⟨rv, ev, d, hv, _, hd⟩ := replyOf_serverMsg hrep (hlink _ hR) hlive hl
    exact ⟨d, hv, hd⟩

/-- a reply read by a client is to a request it sent before -/
theorem reply_causal (W : World K L idOf (Srv.init addr tys self) sers es) {n : Bytes} {a P w b}
    (h : (Sys.init (Srv.init addr tys self) sers).cliHist K n es = a ++ .recv P w :: b) {d k}
    (hl : (sers n).loads P.recv w = .ok (.dict d)) (hi : IsReply P d k) :
    ∃ q ∈ (Cli.init n (sers n)).asked K a, q.id = k := by
  have hR := reads_of W (n := n) (P := P) (w := w) (by rw [h]; simp)
  obtain ⟨es1, es2, rfl, h1, h2⟩ := read_causal W h
  obtain ⟨pre, e, post, h3, h4⟩ := run_out_split h2
  rcases reply_sent W.prefix h3 h4 with ⟨rfl, _⟩ | ⟨k', rt, r, s1, q, _, _, hrep, hq, hqk, _, hlink, hlive, _⟩
  · rw [loads_disconnect] at hl
    simp only [Except.ok.injEq, Val.dict.injEq] at hl
    subst hl
    exact (isReply_disconnect hi (by simp [IsDisconnect, lookupStr])).elim
  · obtain ⟨rv, ev, d', hv, hd, _⟩ := replyOf_serverMsg hrep (hlink _ hR) hlive hl
    simp only [Val.dict.injEq] at hv
    subst hv
    refine ⟨q, ?_, hqk.trans (isReply_replyDict hd hi)⟩
    rw [Sys.asked, h1] at hq
    exact hq

theorem asked_mono {c : Cli} {a b : List CEv} {q : Asked} (h : q ∈ c.asked K a) : q ∈ c.asked K (a ++ b) := by
  rw [asked_append]; exact List.mem_append_left _ h

/-- before its end, a server answers no close request, and tells nobody of its end -/
theorem quiet_reply (W : World K L idOf (Srv.init addr tys self) sers es) {pre post}
    (hhist : (Sys.init (Srv.init addr tys self) sers).srvHist K es = pre ++ post)
    (hcl : ((Srv.init addr tys self).run pre).1.closed = false) (hop : ((Srv.init addr tys self).run pre).1.sockOpen = true)
    {n ser w} (hs : .send n ser w ∈ ((Srv.init addr tys self).run pre).2) {R : RecvEnv} {v} (hR : Reads L addr R)
    (hl : ser.loads R w = .ok v) :
    ∃ rv ev d q, v = .dict d ∧ Val.dict d = replyDict q.id rv ev ∧ 0 ≤ q.id ∧
      q ∈ (Sys.init (Srv.init addr tys self) sers).asked K es n ∧ q.action ≠ "close" := by
  obtain ⟨p1, e, p2, rfl, h4⟩ := run_out_split hs
  have hst : ((Srv.init addr tys self).run (p1 ++ e :: p2)).1 = ((((Srv.init addr tys self).run p1).1.step e).1.run p2).1 := by
    rw [run_append_state]; rfl
  rw [hst] at hcl hop
  have hcl1 : (((Srv.init addr tys self).run p1).1.step e).1.closed = false := by
    cases h : (((Srv.init addr tys self).run p1).1.step e).1.closed with
    | false => rfl
    | true => rw [(closed_run p2 h).1] at hcl; simp at hcl
  have hop1 : (((Srv.init addr tys self).run p1).1.step e).1.sockOpen = true := by
    cases h : (((Srv.init addr tys self).run p1).1.step e).1.sockOpen with
    | true => rfl
    | false => rw [(run_stopped p2 h).1] at hop; simp at hop
  rcases reply_sent W (by rw [hhist, List.append_assoc]; rfl) h4 with ⟨_, h⟩ | ⟨k', rt, r, s1, q, hk, _, hrep, hq, rfl, _, hlink, hlive, hact⟩
  · rw [hcl1] at h; simp at h
  · obtain ⟨rv, ev, d', hv, hd, _⟩ := replyOf_serverMsg hrep (hlink _ hR) hlive hl
    refine ⟨rv, ev, d', q, hv, hd, hk, hq, fun h => ?_⟩
    rw [hact hcl1 h] at hop1; simp at hop1

theorem replyDict_not_disconnect {d k rv ev} (h : Val.dict d = replyDict k rv ev) : ¬ IsDisconnect d := by
  simp only [replyDict, Val.dict.injEq] at h
  subst h
  simp [IsDisconnect, lookupStr]

/-- a client that read only messages from before the server's end is connected -/
theorem quiet (W : World K L idOf (Srv.init addr tys self) sers es) {pre post}
    (hhist : (Sys.init (Srv.init addr tys self) sers).srvHist K es = pre ++ post)
    (hcl : ((Srv.init addr tys self).run pre).1.closed = false) (hop : ((Srv.init addr tys self).run pre).1.sockOpen = true)
    {n a b} (h : (Sys.init (Srv.init addr tys self) sers).cliHist K n es = a ++ b)
    (ha : ∀ w ∈ recvs a, .send n (sers n) w ∈ ((Srv.init addr tys self).run pre).2) :
    ((Cli.init n (sers n)).run K a).1.disconnected = false := by
  cases hd : ((Cli.init n (sers n)).run K a).1.disconnected with
  | false => rfl
  | true =>
    exfalso
    obtain ⟨a1, P, w, a2, rfl, d, hr, ht⟩ := disconnected_origin (show (Cli.init n (sers n)).disconnected = false from rfl) hd
    have hR := reads_of W (n := n) (P := P) (w := w) (by rw [h]; simp)
    rw [Cli.reads, (run_const K _ _).2.1] at hr
    obtain ⟨rv, ev, d', q, hv, hd', hq0, hq, hqa⟩ := quiet_reply W hhist hcl hop (ha w (by rw [recvs_append]; simp [recvs])) hR hr
    simp only [Val.dict.injEq] at hv
    subst hv
    rcases ht with ht | ⟨k, hk, _, htab⟩
    · exact replyDict_not_disconnect hd' ht
    · rcases table_asked htab with h1 | ⟨q', h1, h2, h3⟩
      · simp [Cli.init] at h1
      · have hqk := isReply_replyDict hd' hk
        have h1' : q' ∈ (Sys.init (Srv.init addr tys self) sers).asked K es n := by
          rw [Sys.asked, h, cli_init_eq, List.append_assoc]; exact asked_mono h1
        have := asked_unique hq h1' (by rw [hqk, h2]) (by omega)
        subst this
        simp [hqa] at h3

/-- messages to a client are in its format -/
theorem sent_ser {n : Bytes} : ∀ {es : List SEv} {s : Sys}, SInv K s → (∀ e ∈ es, ∀ H, e.heap? = some H → Fits K H) →
    ∀ {p}, p ∈ sentTo n (s.outs K es) → p.1 = (s.cli n).ser
  | [], s, _, _, p, h => by simp [outs_nil, sentTo] at h
  | e :: es, s, hi, hf, p, h => by
    have hi' := hi.step (hf e List.mem_cons_self)
    rw [outs_cons, sentTo_append, List.mem_append] at h
    rcases h with h | h
    · rcases down_step (K := K) e n (s := s) with ⟨_, _, _, _, h2⟩ | ⟨_, _, h2⟩ | ⟨P, junk, ser, w, _, _, _, _, h2⟩
      · rw [h2] at h; simp [sentTo] at h
      · have := hi'.down n p (by rw [h2]; exact List.mem_append_right _ h)
        rw [this, sys_step_ser]
      · rw [h2] at h; simp [sentTo] at h
    · rw [sent_ser hi' (fun e he => hf e (List.mem_cons_of_mem _ he)) h, sys_step_ser]

theorem cliHist_close {n : Bytes} : ∀ {es : List SEv} {s : Sys}, .closeClient n ∉ es → .close ∉ s.cliHist K n es
  | [], _, _ => by simp [Sys.cliHist]
  | e :: es, s, h => by
    simp only [List.mem_cons, not_or] at h
    simp only [Sys.cliHist, List.mem_append, not_or]
    refine ⟨?_, cliHist_close h.2⟩
    cases e <;> simp only [Sys.cliEvs] <;> (repeat' split) <;> simp_all

theorem outs_split {pre e post} (hhist : (Sys.init (Srv.init addr tys self) sers).srvHist K es = pre ++ e :: post) :
    (Sys.init (Srv.init addr tys self) sers).outs K es = ((Srv.init addr tys self).run pre).2 ++
      ((((Srv.init addr tys self).run pre).1.step e).2 ++ ((((Srv.init addr tys self).run pre).1.step e).1.run post).2) := by
  show ((Srv.init addr tys self).run ((Sys.init (Srv.init addr tys self) sers).srvHist K es)).2 = _
  rw [hhist, run_append]
  rfl

theorem isReply_of {P : CliEnv} {k : Nat} {rv ev : Val} {d} (h : Val.dict d = replyDict k rv ev) : IsReply P d k := by
  simp only [replyDict, Val.dict.injEq] at h
  subst h
  exact ⟨by simp [lookupStr], .int k, by simp [lookupStr], by simp [reqKey]⟩

/-- the moment a client reads a reply sent before the server's end, or the reply to its close request -/
theorem at_reading (W : World K L idOf (Srv.init addr tys self) sers es) {pre e post}
    (hhist : (Sys.init (Srv.init addr tys self) sers).srvHist K es = pre ++ e :: post)
    (hcl : ((Srv.init addr tys self).run pre).1.closed = false) (hop : ((Srv.init addr tys self).run pre).1.sockOpen = true)
    {n} (hdn : ((Sys.init (Srv.init addr tys self) sers).run K es).down n = []) (hld : ∀ i, SEv.loseDown n i ∉ es) (hcc : .closeClient n ∉ es)
    {k : Int} (hown : Owner ((Srv.init addr tys self).run pre).1 e n k) {ser w}
    (hs : .send n ser w ∈ (((Srv.init addr tys self).run pre).1.step e).2) :
    ser = sers n ∧ ∃ a P b, (Sys.init (Srv.init addr tys self) sers).cliHist K n es = a ++ .recv P w :: b ∧ Reads L addr P.recv ∧
      ((Cli.init n (sers n)).run K a).1.disconnected = false ∧ ((Cli.init n (sers n)).run K a).1.sockOpen = true ∧
      ((Cli.init n (sers n)).run K a).1.Tracked ∧ ((Cli.init n (sers n)).run K a).1.Inv ∧
      (∀ w ∈ recvs a, .send n (sers n) w ∈ ((Srv.init addr tys self).run pre).2) := by
  have hinv := SInv.init (K := K) (init_clients addr tys self) sers
  have hfifo := down_fifo (n := n) hinv W.fits hld
  rw [hdn, show (Sys.init (Srv.init addr tys self) sers).down n = [] from rfl] at hfifo
  have houts := outs_split hhist
  have hsers : ∀ p, p ∈ sentTo n ((Sys.init (Srv.init addr tys self) sers).outs K es) → p.1 = sers n := fun p hp => sent_ser hinv W.fits hp
  obtain ⟨h1, _, _⟩ := step_one_send hown hs
  rw [houts, sentTo_append, sentTo_append, h1] at hfifo hsers
  have hser : ser = sers n := hsers (ser, w) (by simp)
  subst hser
  simp only [List.map_nil, List.nil_append, List.map_append, List.append_nil, List.map_cons, List.cons_append] at hfifo
  obtain ⟨a, P, b, h2, h3, _⟩ := recvs_split hfifo.symm
  refine ⟨rfl, a, P, b, h2, reads_of W (n := n) (P := P) (w := w) (by rw [h2]; simp), ?_, ?_, ?_, run_inv (K := K) a (Cli.inv_init n (sers n)), ?_⟩
  · refine quiet W hhist hcl hop h2 ?_
    intro w' hw'
    rw [h3, List.mem_map] at hw'
    obtain ⟨p, hp, rfl⟩ := hw'
    rw [← hsers p (by simp [hp])]
    exact mem_sentTo.1 hp
  · have := cliHist_close (K := K) (s := Sys.init (Srv.init addr tys self) sers) hcc
    rw [h2] at this
    rw [sockOpen_run (by simp at this; exact this.1)]
    rfl
  · refine tracked_run a (by intro k h; simp [Cli.fut, Cli.init] at h) ?_
    intro P w v hm hl
    exact serverMsgs_of W n P w v (by rw [h2]; simp [hm]) hl
  · intro w' hw'
    rw [h3, List.mem_map] at hw'
    obtain ⟨p, hp, rfl⟩ := hw'
    rw [← hsers p (by simp [hp])]
    exact mem_sentTo.1 hp

/-- a future whose reply is read is in the table then, or answered already -/
theorem reply_finds (W : World K L idOf (Srv.init addr tys self) sers es) {pre e post}
    (hhist : (Sys.init (Srv.init addr tys self) sers).srvHist K es = pre ++ e :: post)
    (hcl : ((Srv.init addr tys self).run pre).1.closed = false) (hop : ((Srv.init addr tys self).run pre).1.sockOpen = true)
    {n} (hdn : ((Sys.init (Srv.init addr tys self) sers).run K es).down n = []) (hld : ∀ i, SEv.loseDown n i ∉ es) (hcc : .closeClient n ∉ es)
    {k : Nat} (hown : Owner ((Srv.init addr tys self).run pre).1 e n k) {ser w}
    (hs : .send n ser w ∈ (((Srv.init addr tys self).run pre).1.step e).2)
    (hread : ∀ P, .recv P w ∈ (Sys.init (Srv.init addr tys self) sers).cliHist K n es → Reads L addr P.recv → ∃ v, ser.loads P.recv w = .ok v)
    (hf : (((Sys.init (Srv.init addr tys self) sers).run K es).cli n).fut k ≠ none) :
    ∃ a P b d q, (Sys.init (Srv.init addr tys self) sers).cliHist K n es = a ++ .recv P w :: b ∧ Reads L addr P.recv ∧
      ((Cli.init n (sers n)).run K a).1.sockOpen = true ∧ ((Cli.init n (sers n)).run K a).1.Inv ∧
      ((Cli.init n (sers n)).run K a).1.reads P w d ∧ IsReply P d k ∧ ServerMsg d ∧
      q ∈ (Sys.init (Srv.init addr tys self) sers).asked K es n ∧ q.id = k ∧
      (((Cli.init n (sers n)).run K a).1.table.get? k = some (decide (q.action = "close")) ∨
       (q.action ≠ "close" ∧ ∃ f, ((Cli.init n (sers n)).run K a).1.fut k = some f ∧ f.answered)) := by
  obtain ⟨rfl, a, P, b, h1, hR, h2, h3, h4, h5, h6⟩ := at_reading W hhist hcl hop hdn hld hcc hown hs
  obtain ⟨v, hl⟩ := hread P (by rw [h1]; simp) hR
  have hrd : ((Cli.init n (sers n)).run K a).1.ser = sers n := (run_const K _ _).2.1
  obtain ⟨rt, r, s1, hk, hcomp, hrep⟩ := step_sends_owner hown hs
  obtain ⟨q, hq, hkk, _, hlink, hlive, _⟩ := reply_of_completes W hhist hs hcomp
  · obtain ⟨rv, ev, d, hv, hd, hm⟩ := replyOf_serverMsg hrep (hlink _ hR) hlive hl
    subst hv
    have hi : IsReply P d k := isReply_of hd
    refine ⟨a, P, b, d, q, h1, hR, h3, h5, ?_, hi, hm, hq, hkk, ?_⟩
    · rw [Cli.reads, hrd]; exact hl
    · obtain ⟨q', hq', hqk'⟩ := reply_causal W h1 hl hi
      have hlt : k < ((Cli.init n (sers n)).run K a).1.nextId := by
        rcases (asked_ids K a (Cli.init n (sers n))).1 q' hq' with h | ⟨_, h⟩ <;> omega
      have hq'' : q' ∈ (Sys.init (Srv.init addr tys self) sers).asked K es n := by
        rw [Sys.asked, h1, cli_init_eq]; exact asked_mono hq'
      have := asked_unique hq hq'' (by omega) (by omega)
      subst this
      rw [sys_run_cli, h1, cli_init_eq, run_append_cli] at hf
      have hf1 := fut_held h5 hlt hf
      have hans : ∀ {f : Fut}, f.answered → ((Cli.init n (sers n)).run K a).1.fut k = some f → q.action ≠ "close" := by
        intro f hfa hfu
        rcases fut_origin hfa (Cli.inv_init n (sers n)) hfu with h | ⟨P', w', d', h7, h8, h9, _⟩
        · simp [Cli.init, Cli.fut] at h
        · have hR' := reads_of W (n := n) (P := P') (w := w') (by rw [h1]; simp [h7])
          obtain ⟨rv, ev, d2, q', hv, hd2, hq0, hq1, hqa⟩ := quiet_reply W hhist hcl hop (h6 w' (mem_recvs.2 ⟨P', h7⟩)) hR' h8
          simp only [Val.dict.injEq] at hv
          subst hv
          have := isReply_replyDict hd2 h9
          have := asked_unique hq hq1 (by omega) (by omega)
          subst this
          exact hqa
      cases hfu : ((Cli.init n (sers n)).run K a).1.fut k with
      | none => exact absurd hfu hf1
      | some f =>
        cases f with
        | pending =>
          left
          obtain ⟨b, hb⟩ := h4 k hfu
          rcases table_asked hb with h | ⟨q', h7, h8, h9⟩
          · simp [Cli.init] at h
          · have hq2 : q' ∈ (Sys.init (Srv.init addr tys self) sers).asked K es n := by
              rw [Sys.asked, h1, cli_init_eq]; exact asked_mono h7
            have := asked_unique hq hq2 (by omega) (by omega)
            subst this
            rw [hb, h9]
        | gone =>
          have := gone_run a (K := K) (Cli.inv_init n (sers n)) (by intro k h; simp [Cli.fut, Cli.init] at h) k hfu
          rw [h2] at this; simp at this
        | value v =>
          right
          exact ⟨hans (f := .value v) trivial hfu, _, rfl, trivial⟩
        | remote x y =>
          right
          exact ⟨hans (f := .remote x y) trivial hfu, _, rfl, trivial⟩

/-- a server that is closed keeps its clients -/
theorem closed_clients : ∀ (es : List Ev) {s : Srv}, s.closed = true → (s.run es).1.clients = s.clients
  | [], _, _ => rfl
  | e :: es, s, h => by
    show ((s.step e).1.run es).1.clients = _
    rw [closed_clients es (closed_step h e).1, step_clients']
    cases e <;> simp [Srv.takes, h]

theorem finish_closes_sends {H : Heap} {s : Srv} {c k rt cl r} (hk : 0 ≤ k) (ho : s.sockOpen = true)
    (h : (s.finish H c k rt cl r).1.sockOpen = false) : ∃ ser w, .send c ser w ∈ (s.finish H c k rt cl r).2 := by
  rcases finish_shape H s c k rt cl r with ⟨_, _, ser, w, x, h6⟩ | ⟨h5, x, h6⟩ | ⟨h5, _⟩
  · exact ⟨ser, w, by rw [h6]; simp⟩
  · exfalso
    unfold Srv.finish at h h6
    have hs := respond_state H s c k rt r
    have hne := respond_noAccept H s c k rt r
    generalize s.respond H c k rt r = y at h h6 hs hne
    obtain ⟨s1, o, z⟩ := y
    obtain ⟨t, hs⟩ := hs
    simp only at hs
    subst hs
    cases z with
    | none =>
      simp only at h6
      rcases hne with ⟨_, _, ser, w, h7⟩ | ⟨_, _, h7⟩ | ⟨h7, _⟩
      · simp only at h7; rw [h7] at h6; simp at h6
      · exact h7 rfl
      · omega
    | some e => simp [ho] at h
  · omega

/-- how a server ends that was closed -/
theorem the_end (W : World K L idOf (Srv.init addr tys self) sers es)
    (hc : ((Sys.init (Srv.init addr tys self) sers).run K es).srv.closed = true)
    (ho : ((Sys.init (Srv.init addr tys self) sers).run K es).srv.sockOpen = false) :
    ∃ pre H n0 q post s1, (Sys.init (Srv.init addr tys self) sers).srvHist K es = pre ++ .recv H (n0 :: q.parts K) :: post ∧
      ((Srv.init addr tys self).run pre).1.closed = false ∧ ((Srv.init addr tys self).run pre).1.sockOpen = true ∧
      (((Srv.init addr tys self).run pre).1.step (.recv H (n0 :: q.parts K))).1.sockOpen = false ∧
      q ∈ (Sys.init (Srv.init addr tys self) sers).asked K es n0 ∧ q.action = "close" ∧
      Owner ((Srv.init addr tys self).run pre).1 (.recv H (n0 :: q.parts K)) n0 q.id ∧
      Completes ((Srv.init addr tys self).run pre).1 (.recv H (n0 :: q.parts K)) n0 q.id q.returnType (.ok (.bool true)) s1 ∧
      (∀ n, n ≠ n0 → ((Sys.init (Srv.init addr tys self) sers).run K es).srv.clients.get? n ≠ none →
        .send n (sers n) disconnectWire ∈ (((Srv.init addr tys self).run pre).1.step (.recv H (n0 :: q.parts K))).2) ∧
      (0 ≤ q.id → ∃ ser w, .send n0 ser w ∈ (((Srv.init addr tys self).run pre).1.step (.recv H (n0 :: q.parts K))).2) := by
  rw [sys_run_srv] at hc ho
  rw [show (Sys.init (Srv.init addr tys self) sers).srv = Srv.init addr tys self from rfl] at hc ho
  obtain ⟨pre, e, post, hhist, h1, h2⟩ := closing_split (show (Srv.init addr tys self).closed = false from rfl) hc
  obtain ⟨H, parts, n0, m, ser, opts, rfl, hserv, hr, hact, hst, hu, hp⟩ := closing_request h1 h2
  have hfin : ((Srv.init addr tys self).run ((Sys.init (Srv.init addr tys self) sers).srvHist K es)).1 =
      ((((Srv.init addr tys self).run pre).1.step (.recv H parts)).1.run post).1 := by
    rw [hhist, run_append_state]; rfl
  have ho' : (((Srv.init addr tys self).run pre).1.step (.recv H parts)).1.sockOpen = false := by
    rw [hfin, (closed_run post h2).2] at ho; exact ho
  have hin : Ev.recv H parts ∈ (Sys.init (Srv.init addr tys self) sers).srvHist K es := by rw [hhist]; simp
  obtain ⟨n', q, hq, hqa⟩ := recv_asked (A := fun _ => []) W.fits (fun _ => rfl) hin
  simp only [List.not_mem_nil, false_or] at hqa
  subst hq
  obtain ⟨se0, hse0, hheap0⟩ := srvHist_heap hin
  rw [readOne_parts (H := H) (W.fits se0 hse0 H hheap0)] at hr
  simp only [Except.ok.injEq, Prod.mk.injEq] at hr
  obtain ⟨rfl, rfl⟩ := hr
  simp only at hact hst
  obtain ⟨es1, se, es2, hes, hpre, _⟩ := srvHist_split hhist
  have hinv1 : SInv K ((Sys.init (Srv.init addr tys self) sers).run K es1) :=
    SInv.run (SInv.init (K := K) (init_clients addr tys self) sers) (fun e he => W.fits e (by rw [hes]; exact List.mem_append_left _ he))
  have hknown : ∀ n st, ((Srv.init addr tys self).run pre).1.clients.get? n = some st → st = (sers n).name := by
    intro n st h
    have := hinv1.known n st
    rw [sys_run_srv, hpre, sys_run_ser] at this
    exact this h
  have hwf : ((Srv.init addr tys self).run pre).1.clients.WF := run_wf (by simp [init_clients, Dict.WF]) pre
  obtain ⟨o, hout, hdisc, _, hcount, hstep⟩ := close_step hserv (run_reg pre (fun _ => rfl) h1) hwf
    (readOne_parts (H := H) (W.fits se0 hse0 H hheap0) n' q) hact hst hu hp (by
      intro c' st _ hc'
      rw [hknown c' st hc', serOf_name]; simp)
  refine ⟨pre, H, n', q, post, _, hhist, h1, hserv.2.2, ho', hqa, hact,
    ⟨_, readOne_parts (H := H) (W.fits se0 hse0 H hheap0) n' q, rfl⟩, .inl ⟨o, hout⟩, ?_, ?_⟩
  · intro n hn hget
    rw [sys_run_srv, show (Sys.init (Srv.init addr tys self) sers).srv = Srv.init addr tys self from rfl, hfin, closed_clients post h2] at hget
    have hget' : ((Srv.init addr tys self).run pre).1.clients.get? n ≠ none := by
      rw [hstep, finish_clients] at hget
      simpa [Dict.get?_set, Ne.symm hn] using hget
    cases hg : ((Srv.init addr tys self).run pre).1.clients.get? n with
    | none => exact absurd hg hget'
    | some st =>
      have := hknown n st hg
      subst this
      have hd := hdisc n (sers n)
      rw [if_pos ⟨hn, by rw [hg]; simp [serOf_name]⟩] at hd
      have : 0 < countDisconnects n (sers n) o := by omega
      rw [countDisconnects, List.countP_pos_iff] at this
      obtain ⟨x, hx, hx2⟩ := this
      cases x <;> simp only [Bool.false_eq_true] at hx2
      rename_i c2 ser2 w2
      simp only [Bool.and_eq_true, decide_eq_true_eq] at hx2
      obtain ⟨⟨rfl, rfl⟩, hx2⟩ := hx2
      have hw : w2 = disconnectWire := by
        have := step_sends hwf (s := ((Srv.init addr tys self).run pre).1) (e := .recv H (n' :: q.parts K)) (c := c2) (ser := sers c2) (w := w2)
          (by rw [hstep]; simp [hx])
        rcases this.2 with ⟨h, _⟩ | ⟨k, rt, r, s1, _, hcomp, _⟩
        · exact h
        · obtain ⟨m, hr, _⟩ := completes_read hcomp
          rw [readOne_parts (H := H) (W.fits se0 hse0 H hheap0)] at hr
          simp only [Except.ok.injEq, Prod.mk.injEq] at hr
          exact absurd hr.1.symm hn
      subst hw
      rw [hstep]; simp [hx]
  · intro hk
    rw [hstep] at ho' ⊢
    simp only at ho' ⊢
    obtain ⟨ser, w, h⟩ := finish_closes_sends hk (by exact hserv.2.2) ho'
    exact ⟨ser, w, by simp only [List.mem_append]; exact .inr h⟩

end

end Verif
