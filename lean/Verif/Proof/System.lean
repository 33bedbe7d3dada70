import Verif.Proof.SystemReply
import Verif.Props.ClientWait
import Verif.Props.ServerMore
/-! # Lemmas about systems -/
namespace Verif

/-! ## Histories of the parts -/

theorem sys_step_cli (K : Codec) (s : Sys) (n : Bytes) (e : SEv) : (s.step K e).cli n = ((s.cli n).run K (s.cliEvs n e)).1 := by
  have hcl : ∀ (s : Sys) n' ce, (s.client K n' ce).cli n = ((s.cli n).run K (if n' = n then [ce] else [])).1 := by
    intro s n' ce
    simp only [Sys.client, upd]
    by_cases h : n = n'
    · subst h; simp [Cli.run]
    · simp [h, Ne.symm h, Cli.run]
  cases e with
  | request n' E t a o rt sy => exact hcl ..
  | forget n' k => exact hcl ..
  | closeClient n' => exact hcl ..
  | deliver n' P junk =>
    simp only [Sys.step, Sys.cliEvs]
    by_cases h : n' = n
    · subst h
      simp only [if_true]
      split
      · split
        · rename_i h; simp [h, Cli.run]
        · rename_i h; rw [hcl]; simp [h]
      · rfl
    · rw [if_neg h]
      split
      · split
        · rfl
        · rw [hcl, if_neg h]
      · rfl
  | serve n' H =>
    simp only [Sys.step, Sys.cliEvs]
    split
    · rfl
    · split <;> rfl
  | ret H r => rfl
  | publish H k v => rfl
  | mkProxy H v kw => rfl
  | loseUp n' i => rfl
  | loseDown n' i => rfl

theorem sys_step_srv (K : Codec) (s : Sys) (e : SEv) : (s.step K e).srv = (s.srv.run (s.srvEvs e)).1 := by
  cases e with
  | request n' E t a o rt sy => rfl
  | forget n' k => rfl
  | closeClient n' => rfl
  | deliver n' P junk =>
    simp only [Sys.step, Sys.srvEvs]
    split
    · split <;> rfl
    · rfl
  | serve n' H =>
    simp only [Sys.step, Sys.srvEvs]
    split
    · rename_i h; simp [h, Srv.run]
    · rename_i h
      simp only [h]
      split <;> simp [Sys.server, Srv.run]
  | ret H r => rfl
  | publish H k v => rfl
  | mkProxy H v kw => rfl
  | loseUp n' i => rfl
  | loseDown n' i => rfl

/-- a client in a system is in the state its own history leads to -/
theorem sys_run_cli (K : Codec) (n : Bytes) : ∀ (es : List SEv) (s : Sys), (s.run K es).cli n = ((s.cli n).run K (s.cliHist K n es)).1
  | [], _ => rfl
  | e :: es, s => by
    show ((s.step K e).run K es).cli n = ((s.cli n).run K (s.cliEvs n e ++ (s.step K e).cliHist K n es)).1
    rw [sys_run_cli K n es, sys_step_cli, run_append_cli]

/-- so is the server -/
theorem sys_run_srv (K : Codec) : ∀ (es : List SEv) (s : Sys), (s.run K es).srv = (s.srv.run (s.srvHist K es)).1
  | [], _ => rfl
  | e :: es, s => by
    show ((s.step K e).run K es).srv = (s.srv.run (s.srvEvs e ++ (s.step K e).srvHist K es)).1
    rw [sys_run_srv K es, sys_step_srv, run_append_state]

theorem outs_nil (K : Codec) (s : Sys) : s.outs K [] = [] := rfl
theorem outs_cons (K : Codec) (s : Sys) (e : SEv) (es : List SEv) : s.outs K (e :: es) = (s.srv.run (s.srvEvs e)).2 ++ (s.step K e).outs K es := by
  show (s.srv.run (s.srvEvs e ++ (s.step K e).srvHist K es)).2 = _
  rw [run_append, Sys.outs, sys_step_srv]

theorem sys_run_append (K : Codec) : ∀ (a b : List SEv) (s : Sys), s.run K (a ++ b) = (s.run K a).run K b
  | [], _, _ => rfl
  | e :: a, b, s => sys_run_append K a b (s.step K e)
theorem cliHist_append (K : Codec) (n) : ∀ (a b : List SEv) (s : Sys), s.cliHist K n (a ++ b) = s.cliHist K n a ++ (s.run K a).cliHist K n b
  | [], _, _ => rfl
  | e :: a, b, s => by
    show s.cliEvs n e ++ (s.step K e).cliHist K n (a ++ b) = s.cliEvs n e ++ (s.step K e).cliHist K n a ++ ((s.step K e).run K a).cliHist K n b
    rw [cliHist_append K n a b, List.append_assoc]
theorem srvHist_append (K : Codec) : ∀ (a b : List SEv) (s : Sys), s.srvHist K (a ++ b) = s.srvHist K a ++ (s.run K a).srvHist K b
  | [], _, _ => rfl
  | e :: a, b, s => by
    show s.srvEvs e ++ (s.step K e).srvHist K (a ++ b) = s.srvEvs e ++ (s.step K e).srvHist K a ++ ((s.step K e).run K a).srvHist K b
    rw [srvHist_append K a b, List.append_assoc]
theorem outs_append (K : Codec) (a b : List SEv) (s : Sys) : s.outs K (a ++ b) = s.outs K a ++ (s.run K a).outs K b := by
  rw [Sys.outs, srvHist_append, run_append, Sys.outs, Sys.outs, sys_run_srv]

theorem asked_append (K : Codec) : ∀ (a b : List CEv) (c : Cli), c.asked K (a ++ b) = c.asked K a ++ (c.run K a).1.asked K b
  | [], _, _ => rfl
  | e :: a, b, c => by
    show _ ++ (c.step K e).1.asked K (a ++ b) = _ ++ (c.step K e).1.asked K a ++ ((c.step K e).1.run K a).1.asked K b
    rw [asked_append K a b, List.append_assoc]

theorem sys_asked_append (K : Codec) (n) (a b : List SEv) (s : Sys) : s.asked K (a ++ b) n = s.asked K a n ++ (s.run K a).asked K b n := by
  rw [Sys.asked, cliHist_append, asked_append, Sys.asked, Sys.asked, sys_run_cli]

theorem sys_asked_cons (K : Codec) (n) (e : SEv) (es : List SEv) (s : Sys) :
    s.asked K (e :: es) n = (s.cli n).asked K (s.cliEvs n e) ++ (s.step K e).asked K es n := by
  have := sys_asked_append K n [e] es s
  simpa [Sys.asked, Sys.cliHist, Sys.run] using this

/-! ## What a client transmits -/

/-- a transmitted message is made of the request -/
theorem send_message (K : Codec) (E : SendEnv) (t : Refs) (c : Cli) (a : String) (o : Option Val) (rt sy : String) {m}
    (h : (c.send K E t a o rt sy).2.2.1 = some m) :
    m = Asked.parts K ⟨if sy = "off" then -1 else c.nextId, a, rt, c.ser, o.bind fun v => (c.ser.dumps E t v).2.toOption⟩ := by
  unfold Cli.send at h
  split at h
  · simp at h
  · have key : ∀ (b : Bytes), (match o with
        | none => (t, Except.ok [])
        | some v => match c.ser.dumps E t v with
          | (t, .ok w) => (t, .ok (K.tree c.ser w))
          | (t, .error e) => (t, .error e)).2 = Except.ok b →
        b = ((o.bind fun v => (c.ser.dumps E t v).2.toOption).map (K.tree c.ser)).getD [] := by
      intro b hb
      cases o with
      | none => simp at hb; simp [hb]
      | some v =>
        simp only [Option.bind_some] at hb ⊢
        generalize c.ser.dumps E t v = y at hb ⊢
        obtain ⟨t', r⟩ := y
        cases r with
        | error e => simp at hb
        | ok w => simp only [Except.ok.injEq] at hb; subst hb; rfl
    by_cases hoff : sy = "off"
    · simp only [hoff, if_true] at h ⊢
      split at h
      · simp at h
      · rename_i b hb
        split at h
        · simp at h
        · simp only [Option.some.injEq] at h
          rw [← h, Asked.parts]
          simp only
          rw [← key b]
          cases o with
          | none => exact hb
          | some v => exact hb
    · simp only [hoff, if_false] at h ⊢
      split at h
      · simp at h
      · rename_i b hb
        have hb := key b (by cases o <;> exact hb)
        split at h
        · simp at h
        · simp only [Asked.parts]
          rw [← hb]
          split at h
          · simp only [Option.some.injEq] at h; rw [← h]
          · split at h <;> (simp only [Option.some.injEq] at h; rw [← h])

theorem step_transmitted (K : Codec) (c : Cli) (e : CEv) : transmitted (c.step K e).2 = (c.asked K [e]).map (Asked.parts K) := by
  cases e with
  | send E t a o rt sy =>
    have h := fun m => send_message K E t c a o rt sy (m := m)
    simp only [Cli.asked, Cli.step, List.append_nil]
    generalize c.send K E t a o rt sy = x at h ⊢
    obtain ⟨t', c', m, r⟩ := x
    cases m with
    | none => simp [transmitted]
    | some m => simp only at h; simp [transmitted, ← h m rfl]
  | recv P w => rfl
  | drop k => rfl
  | close => rfl

/-- the ids of requests -/
theorem asked_ids (K : Codec) : ∀ (es : List CEv) (c : Cli),
    (∀ q ∈ c.asked K es, q.id = -1 ∨ ((c.nextId : Int) ≤ q.id ∧ q.id < (c.run K es).1.nextId)) ∧ c.nextId ≤ (c.run K es).1.nextId ∧
    (∀ q ∈ c.asked K es, q.ser = c.ser) ∧
    ((c.asked K es).filter (fun q => decide (q.id ≠ -1))).Pairwise (fun a b => a.id < b.id)
  | [], c => ⟨by simp [Cli.asked], Nat.le_refl _, by simp [Cli.asked], by simp [Cli.asked]⟩
  | e :: es, c => by
    obtain ⟨h1, h2, h3, h4⟩ := asked_ids K es (c.step K e).1
    have hser := (step_const' K c e).2.1
    rw [hser] at h3
    have hrun : (c.run K (e :: es)).1 = ((c.step K e).1.run K es).1 := rfl
    rw [hrun]
    have skip : c.asked K (e :: es) = (c.step K e).1.asked K es → c.nextId ≤ (c.step K e).1.nextId →
        (∀ q ∈ c.asked K (e :: es), q.id = -1 ∨ ((c.nextId : Int) ≤ q.id ∧ q.id < ((c.step K e).1.run K es).1.nextId)) ∧
        c.nextId ≤ ((c.step K e).1.run K es).1.nextId ∧ (∀ q ∈ c.asked K (e :: es), q.ser = c.ser) ∧
        ((c.asked K (e :: es)).filter (fun q => decide (q.id ≠ -1))).Pairwise (fun a b => a.id < b.id) := by
      intro ha hn
      rw [ha]
      refine ⟨?_, by omega, h3, h4⟩
      intro q hq
      rcases h1 q hq with h | h
      · exact .inl h
      · right; omega
    cases e with
    | recv P w => exact skip rfl (Nat.le_of_eq (receive_const P c w).2.2.1.symm)
    | drop k => exact skip rfl (Nat.le_refl _)
    | close => exact skip rfl (Nat.le_refl _)
    | send E t a o rt sy =>
      have hc := send_cases K E t c a o rt sy
      have hs : (c.step K (.send E t a o rt sy)).1 = (c.send K E t a o rt sy).2.1 := rfl
      have hasked : c.asked K (.send E t a o rt sy :: es) = (match (c.send K E t a o rt sy).2.2.1 with
          | some _ => [⟨if sy = "off" then -1 else c.nextId, a, rt, c.ser, o.bind fun v => (c.ser.dumps E t v).2.toOption⟩]
          | none => []) ++ (c.step K (.send E t a o rt sy)).1.asked K es := rfl
      rw [hasked] at skip ⊢
      clear hasked hrun hser
      simp only [hs] at skip h1 h2 h3 h4 ⊢
      clear hs
      generalize (c.send K E t a o rt sy).2.1 = c' at hc skip h1 h2 h3 h4 ⊢
      generalize (c.send K E t a o rt sy).2.2.1 = m at hc skip h1 h2 h3 h4 ⊢
      generalize (c.send K E t a o rt sy).2.2.2 = r at hc
      cases hc with
      | disconnected _ => exact skip rfl (Nat.le_refl _)
      | failed _ => exact skip rfl (by simp only; split <;> omega)
      | off _ _ hoff =>
        refine ⟨?_, h2, ?_, ?_⟩
        · intro q hq
          simp only [hoff, if_true, List.singleton_append, List.mem_cons] at hq
          rcases hq with rfl | hq
          · exact .inl rfl
          · exact h1 q hq
        · intro q hq
          simp only [List.singleton_append, List.mem_cons] at hq
          rcases hq with rfl | hq
          · rfl
          · exact h3 q hq
        · simp only [hoff, if_true, List.singleton_append]
          rw [List.filter_cons_of_neg (by simp)]
          exact h4
      | sent hd hso hno _ _ =>
        simp only at h2
        refine ⟨?_, by omega, ?_, ?_⟩
        · intro q hq
          simp only [hno, if_false, List.singleton_append, List.mem_cons] at hq
          rcases hq with rfl | hq
          · right; simp only; omega
          · rcases h1 q hq with h | h
            · exact .inl h
            · right; simp only at h; omega
        · intro q hq
          simp only [List.singleton_append, List.mem_cons] at hq
          rcases hq with rfl | hq
          · rfl
          · exact h3 q hq
        · simp only [hno, if_false, List.singleton_append]
          rw [List.filter_cons_of_pos (by simp only [ne_eq, decide_eq_true_eq]; omega)]
          refine List.pairwise_cons.2 ⟨?_, h4⟩
          intro q hq
          obtain ⟨hq1, hq2⟩ := List.mem_filter.1 hq
          rcases h1 q hq1 with h | h
          · simp [h] at hq2
          · simp only at h ⊢; omega
      | invalid hd hso hno _ _ =>
        simp only at h2
        refine ⟨?_, by omega, ?_, ?_⟩
        · intro q hq
          simp only [hno, if_false, List.singleton_append, List.mem_cons] at hq
          rcases hq with rfl | hq
          · right; simp only; omega
          · rcases h1 q hq with h | h
            · exact .inl h
            · right; simp only at h; omega
        · intro q hq
          simp only [List.singleton_append, List.mem_cons] at hq
          rcases hq with rfl | hq
          · rfl
          · exact h3 q hq
        · simp only [hno, if_false, List.singleton_append]
          rw [List.filter_cons_of_pos (by simp only [ne_eq, decide_eq_true_eq]; omega)]
          refine List.pairwise_cons.2 ⟨?_, h4⟩
          intro q hq
          obtain ⟨hq1, hq2⟩ := List.mem_filter.1 hq
          rcases h1 q hq1 with h | h
          · simp [h] at hq2
          · simp only at h ⊢; omega

/-! ## The server's side of the queues -/

theorem started_append (n) (a b : List Out) : started n (a ++ b) = started n a ++ started n b := by simp [started]
theorem sentTo_append (n) (a b : List Out) : sentTo n (a ++ b) = sentTo n a ++ sentTo n b := by simp [sentTo]

theorem finish_started (H : Heap) (s : Srv) (c k rt cl r n) : started n (s.finish H c k rt cl r).2 = [] := by
  rcases finish_shape H s c k rt cl r with ⟨_, _, _, _, _, h⟩ | ⟨_, _, h⟩ | ⟨_, h | ⟨_, h⟩⟩ <;> rw [h] <;> simp [started]

theorem neutral_started {n} : ∀ {os : List Out}, (∀ x ∈ os, x.neutral) → started n os = []
  | [], _ => rfl
  | x :: os, h => by
    have ih := neutral_started (n := n) (os := os) (fun x hx => h x (List.mem_cons_of_mem _ hx))
    have hx := h x List.mem_cons_self
    cases x <;> simp only [Out.neutral] at hx <;> simpa [started] using ih

/-- the request a step starts, if any -/
theorem step_started (s : Srv) (e : Ev) (n : Bytes) : started n (s.step e).2 = match e with
    | .recv H parts => if s.takes then match readOne H parts with
        | .ok (c, m) => if c = n then [(m.reqId, m.action, m.serType)] else []
        | .error _ => []
      else []
    | _ => [] := by
  have hnot : ∀ H r, started n (s.step (.ret H r)).2 = [] := by
    intro H r
    simp only [Srv.step]
    split
    · rfl
    · exact finish_started ..
  cases e with
  | ret H r => exact hnot H r
  | mkProxy H v kw => rfl
  | publish H k v => simp only [Srv.step]; split <;> rfl
  | recv H parts =>
    by_cases ht : s.takes = true
    · simp only [ht, if_true]
      simp only [Srv.takes, Bool.and_eq_true, Bool.not_eq_true'] at ht
      obtain ⟨⟨h1, h2⟩, h3⟩ := ht
      have hc := step_cases s (.recv H parts)
      cases hr : readOne H parts with
      | error x => simp [Srv.step, h1, h2, h3, hr, started]
      | ok y =>
        obtain ⟨c, m⟩ := y
        have hst : (s.step (.recv H parts)).2 = .accept c m.reqId m.action m.serType :: (s.process H c m).2 := by
          simp [Srv.step, h1, h2, h3, hr]
        rw [hst]
        have hp : started n (s.process H c m).2 = [] := by
          rcases process_split H s c m with ⟨x, h, _⟩ | ⟨ser, cs, opts, _, _, _, ⟨s1, o, r, h8, h9⟩ | ⟨s1, o, task, h8, h9⟩⟩
          · rw [h]; exact finish_started ..
          · rw [h9]
            have h10 := action_state H { s with clients := s.clients.set c m.serType } c m.action opts
            rw [h8] at h10
            simp only
            rw [started_append, finish_started, neutral_started h10.2]; rfl
          · rw [h9]
            have h10 := action_state H { s with clients := s.clients.set c m.serType } c m.action opts
            rw [h8] at h10
            exact neutral_started h10.2.1
        rw [show ∀ (x : Out) l, x :: l = [x] ++ l from fun _ _ => rfl, started_append, hp]
        by_cases hcn : c = n <;> simp [started, hcn]
    · simp only [ht]
      simp only [Srv.takes, Bool.and_eq_true, Bool.not_eq_true', not_and, Bool.not_eq_true] at ht
      simp only [Srv.step]
      by_cases h1 : s.closed = true
      · simp [h1, started]
      · by_cases h2 : s.dead = true
        · simp [h2, started]
        · have h3 := ht ⟨by simpa using h1, by simpa using h2⟩
          simp [h3, h1, h2, started]

theorem serOf_name (ser : Ser) : serOf ser.name = some ser := by cases ser <;> rfl

/-- a message of a client, as the server reads it -/
theorem readOne_parts {K : Codec} {H : Heap} (hf : Fits K H) (n : Bytes) (q : Asked) : readOne H (n :: q.parts K) =
    .ok (n, ⟨q.id, q.action, q.returnType, q.ser.name, (q.payload.map (K.tree q.ser)).getD []⟩) := by
  simp [Asked.parts, readOne, hf.num, hf.text]

theorem readOne_name {H : Heap} {n m c x} (h : readOne H (n :: m) = .ok (c, x)) : c = n := by
  unfold readOne at h
  split at h
  · rename_i heq
    split at h
    · simp at h
    · split at h
      · simp only [Except.ok.injEq, Prod.mk.injEq] at h
        simp only [List.cons.injEq] at heq
        rw [← h.1, heq.1]
      · simp at h
  · simp at h

theorem client_up (K : Codec) (s : Sys) (n' n : Bytes) (ce : CEv) :
    (s.client K n' ce).up n = s.up n ++ ((s.cli n).asked K (if n' = n then [ce] else [])).map (Asked.parts K) := by
  simp only [Sys.client, upd]
  by_cases h : n = n'
  · subst h; simp [step_transmitted]
  · simp [h, Ne.symm h, Cli.asked]

theorem map_eraseIdx {α β : Type} (f : α → β) : ∀ (l : List α) (i : Nat), (l.map f).eraseIdx i = (l.eraseIdx i).map f
  | [], _ => rfl
  | _ :: _, 0 => rfl
  | _ :: l, i + 1 => by simp [map_eraseIdx f l i]

/-- messages towards the server stay in order; they disappear only when lost -/
theorem up_step {K : Codec} {s : Sys} {e : SEv} {n : Bytes} {A : List Asked} (hf : ∀ H, e.heap? = some H → Fits K H)
    (hA : s.up n = A.map (Asked.parts K)) : ∃ tk A', started n (s.srv.run (s.srvEvs e)).2 = tk.map Asked.brief ∧
      (s.step K e).up n = A'.map (Asked.parts K) ∧ (tk ++ A').Sublist (A ++ (s.cli n).asked K (s.cliEvs n e)) ∧
      ((∀ i, e ≠ .loseUp n i) → tk ++ A' = A ++ (s.cli n).asked K (s.cliEvs n e)) := by
  have hcl : ∀ (s' : Sys) n' ce, s'.up = s.up → s'.cli = s.cli → ∃ tk A', started n (s.srv.run []).2 = tk.map Asked.brief ∧
      (s'.client K n' ce).up n = A'.map (Asked.parts K) ∧
      (tk ++ A').Sublist (A ++ (s.cli n).asked K (if n' = n then [ce] else [])) ∧
      ((∀ i, e ≠ .loseUp n i) → tk ++ A' = A ++ (s.cli n).asked K (if n' = n then [ce] else [])) := by
    intro s' n' ce h1 h2
    refine ⟨[], A ++ (s.cli n).asked K (if n' = n then [ce] else []), rfl, ?_, List.Sublist.refl _, fun _ => rfl⟩
    rw [client_up, h1, h2, hA, List.map_append]
  have hno : ∀ os, started n os = [] → ∃ tk A', started n os = tk.map Asked.brief ∧
      s.up n = A'.map (Asked.parts K) ∧ (tk ++ A').Sublist (A ++ (s.cli n).asked K []) ∧
      ((∀ i, e ≠ .loseUp n i) → tk ++ A' = A ++ (s.cli n).asked K []) := by
    intro os ho
    exact ⟨[], A, ho, hA, by simp [Cli.asked], fun _ => by simp [Cli.asked]⟩
  have hret : ∀ ev, started n (s.srv.step ev).2 = [] → started n (s.srv.run [ev]).2 = [] := by
    intro ev h; simpa [Srv.run] using h
  cases e with
  | request n' E t a o rt sy => exact hcl _ _ _ rfl rfl
  | forget n' k => exact hcl _ _ _ rfl rfl
  | closeClient n' => exact hcl _ _ _ rfl rfl
  | deliver n' P junk =>
    simp only [Sys.step, Sys.cliEvs, Sys.srvEvs] at hno ⊢
    by_cases h : n' = n
    · subst h
      simp only [if_true] at hno ⊢
      split
      · split
        · rename_i hd; simpa [hd] using hno (s.srv.run []).2 rfl
        · rename_i hd
          obtain ⟨tk, A', h1, h2, h3, h4⟩ := hcl { s with down := upd s.down n' _ } n' _ rfl rfl
          simp only [if_true] at h3 h4
          simp only [hd]
          exact ⟨tk, A', h1, h2, h3, h4⟩
      · exact hno _ rfl
    · simp only [if_neg h]
      split
      · split
        · exact hno _ rfl
        · obtain ⟨tk, A', h1, h2, h3, h4⟩ := hcl { s with down := upd s.down n' _ } n' _ rfl rfl
          simp only [if_neg h] at h3 h4
          exact ⟨tk, A', h1, h2, h3, h4⟩
      · exact hno _ rfl
  | ret H r => exact hno _ (hret _ (step_started ..))
  | publish H k v => exact hno _ (hret _ (step_started ..))
  | mkProxy H v kw => exact hno _ (hret _ (step_started ..))
  | loseUp n' i =>
    by_cases h : n = n'
    · subst h
      refine ⟨[], A.eraseIdx i, rfl, by simp [Sys.step, upd, hA, map_eraseIdx], ?_, fun h => absurd rfl (h i)⟩
      simpa [Cli.asked, Sys.cliEvs] using List.eraseIdx_sublist A i
    · obtain ⟨tk, A', h1, h2, h3, h4⟩ := hno [] rfl
      refine ⟨tk, A', h1, ?_, h3, h4⟩
      simpa [Sys.step, upd, h] using h2
  | loseDown n' i => exact hno [] rfl
  | serve n' H =>
    simp only [Sys.step, Sys.cliEvs, Sys.srvEvs]
    cases hu : s.up n' with
    | nil => simpa [hu, Sys.cliEvs, Srv.run] using hno [] rfl
    | cons m r =>
      simp only
      by_cases ht : s.srv.takes = true
      · simp only [ht, if_true, Sys.server, upd]
        have hst := step_started s.srv (.recv H (n' :: m)) n
        simp only [ht, if_true] at hst
        by_cases hn : n = n'
        · subst hn
          rw [hu] at hA
          cases A with
          | nil => simp at hA
          | cons q A =>
            simp only [List.map_cons, List.cons.injEq] at hA
            obtain ⟨rfl, rfl⟩ := hA
            rw [readOne_parts (hf H rfl)] at hst
            refine ⟨[q], A, ?_, by simp, by simp [Cli.asked], by simp [Cli.asked]⟩
            simpa [Srv.run, Asked.brief] using hst
        · refine ⟨[], A, ?_, by simp [hn, hA], by simp [Cli.asked], by simp [Cli.asked]⟩
          apply hret
          rw [hst]
          split
          · rename_i c x hx
            rw [readOne_name hx, if_neg (Ne.symm hn)]
          · rfl
      · simp only [ht, Sys.server]
        refine hno _ (hret _ ?_)
        rw [step_started]
        simp [ht]

theorem up_fifo {K : Codec} {n : Bytes} : ∀ {es : List SEv} {s : Sys} {A : List Asked}, (∀ e ∈ es, ∀ H, e.heap? = some H → Fits K H) →
    s.up n = A.map (Asked.parts K) → ∃ tk A', started n (s.outs K es) = tk.map Asked.brief ∧
      (s.run K es).up n = A'.map (Asked.parts K) ∧ (tk ++ A').Sublist (A ++ s.asked K es n) ∧
      ((∀ i, .loseUp n i ∉ es) → tk ++ A' = A ++ s.asked K es n)
  | [], s, A, _, hA => ⟨[], A, rfl, hA, by simp [Sys.asked, Sys.cliHist, Cli.asked], by simp [Sys.asked, Sys.cliHist, Cli.asked]⟩
  | e :: es, s, A, hf, hA => by
    obtain ⟨tk1, A1, h1, h2, h3, h4⟩ := up_step (hf e List.mem_cons_self) hA
    obtain ⟨tk2, A2, g1, g2, g3, g4⟩ := up_fifo (fun e he => hf e (List.mem_cons_of_mem _ he)) h2
    refine ⟨tk1 ++ tk2, A2, ?_, g2, ?_, ?_⟩
    · rw [outs_cons, started_append, h1, g1, List.map_append]
    · rw [sys_asked_cons, List.append_assoc, ← List.append_assoc A]
      refine (List.Sublist.append (List.Sublist.refl tk1) g3).trans ?_
      rw [← List.append_assoc]
      exact List.Sublist.append h3 (List.Sublist.refl _)
    · intro hl
      simp only [List.mem_cons, not_or] at hl
      rw [sys_asked_cons, List.append_assoc, ← List.append_assoc A, g4 fun i => (hl i).2, ← List.append_assoc, h4 fun i => Ne.symm (hl i).1]

/-- every message the server reads is a request a client sent -/
theorem recv_asked {K : Codec} : ∀ {es : List SEv} {s : Sys} {A : Bytes → List Asked}, (∀ e ∈ es, ∀ H, e.heap? = some H → Fits K H) →
    (∀ n, s.up n = (A n).map (Asked.parts K)) → ∀ {H ps}, .recv H ps ∈ s.srvHist K es →
    ∃ n q, ps = n :: q.parts K ∧ (q ∈ A n ∨ q ∈ s.asked K es n)
  | [], s, A, _, _, H, ps, h => by simp [Sys.srvHist] at h
  | e :: es, s, A, hf, hA, H, ps, h => by
    simp only [Sys.srvHist, List.mem_append] at h
    rcases h with h | h
    · cases e <;> simp only [Sys.srvEvs, List.mem_singleton, List.not_mem_nil, reduceCtorEq] at h
      rename_i n' H'
      cases hu : s.up n' with
      | nil => simp [hu] at h
      | cons m r =>
        rw [hu] at h
        simp only [List.mem_singleton, Ev.recv.injEq] at h
        have := hA n'
        rw [hu] at this
        cases hA' : A n' with
        | nil => simp [hA'] at this
        | cons q l =>
          rw [hA'] at this
          simp only [List.map_cons, List.cons.injEq] at this
          exact ⟨n', q, by rw [h.2, this.1], .inl (by rw [hA']; exact List.mem_cons_self)⟩
    · have hs := fun n => up_step (hf e List.mem_cons_self) (hA n)
      have : ∃ A' : Bytes → List Asked, ∀ n, (s.step K e).up n = (A' n).map (Asked.parts K) ∧
          ∀ q ∈ A' n, q ∈ A n ++ (s.cli n).asked K (s.cliEvs n e) := by
        refine ⟨fun n => Classical.choose (Classical.choose_spec (hs n)), fun n => ?_⟩
        obtain ⟨_, h2, h3, _⟩ := Classical.choose_spec (Classical.choose_spec (hs n))
        exact ⟨h2, fun q hq => h3.subset (List.mem_append_right _ hq)⟩
      obtain ⟨A', hA'⟩ := this
      obtain ⟨n, q, h1, h2⟩ := recv_asked (fun e he => hf e (List.mem_cons_of_mem _ he)) (fun n => (hA' n).1) h
      refine ⟨n, q, h1, ?_⟩
      rw [sys_asked_cons, List.mem_append]
      rcases h2 with h2 | h2
      · rcases List.mem_append.1 ((hA' n).2 q h2) with h3 | h3
        · exact .inl h3
        · exact .inr (.inl h3)
      · exact .inr (.inr h2)

/-! ## The queues towards the clients -/

/-- every client talks one serializer, and the server knows which -/
structure SInv (K : Codec) (s : Sys) : Prop where
  wf : s.srv.clients.WF
  known : ∀ n st, s.srv.clients.get? n = some st → st = (s.cli n).ser.name
  up : ∀ n, ∃ A : List Asked, s.up n = A.map (Asked.parts K) ∧ ∀ q ∈ A, q.ser = (s.cli n).ser
  down : ∀ n p, p ∈ s.down n → p.1 = (s.cli n).ser

theorem step_clients' (s : Srv) (e : Ev) : (s.step e).1.clients = match e with
    | .recv H parts => if s.takes then match readOne H parts with
        | .ok (c, m) => s.clients.set c m.serType
        | .error _ => s.clients
      else s.clients
    | _ => s.clients := by
  cases e with
  | ret H r => simp only [Srv.step]; split; rfl; rw [finish_clients]
  | mkProxy H v kw => rfl
  | publish H k v => simp only [Srv.step]; split <;> rfl
  | recv H parts =>
    have := step_cases s (.recv H parts)
    by_cases ht : s.takes = true
    · simp only [ht, if_true]
      have ht' := ht
      simp only [Srv.takes, Bool.and_eq_true, Bool.not_eq_true'] at ht
      obtain ⟨⟨h1, h2⟩, h3⟩ := ht
      cases hr : readOne H parts with
      | error x => simp [Srv.step, h1, h2, h3, hr]
      | ok y =>
        obtain ⟨c, m⟩ := y
        have hst : (s.step (.recv H parts)).1 = (s.process H c m).1 := by simp [Srv.step, h1, h2, h3, hr]
        rw [hst]
        rcases process_split H s c m with ⟨x, h, _⟩ | ⟨ser, cs, opts, _, _, _, ⟨s1, o, r, h8, h9⟩ | ⟨s1, o, task, h8, h9⟩⟩
        · rw [h, finish_clients]
        · rw [h9]
          have h10 := action_state H { s with clients := s.clients.set c m.serType } c m.action opts
          rw [h8] at h10
          obtain ⟨⟨t, n, b1, b2, h9, _⟩, _⟩ := h10
          simp only
          rw [finish_clients, h9]
        · rw [h9]
          have h10 := action_state H { s with clients := s.clients.set c m.serType } c m.action opts
          rw [h8] at h10
          simp only
          rw [h10.1]
    · simp only [ht]
      simp only [Srv.takes, Bool.and_eq_true, Bool.not_eq_true', not_and, Bool.not_eq_true] at ht
      simp only [Srv.step]
      by_cases h1 : s.closed = true
      · simp [h1]
      · by_cases h2 : s.dead = true
        · simp [h2]
        · have h3 := ht ⟨by simpa using h1, by simpa using h2⟩
          simp [h3, h1, h2]

theorem sys_step_ser (K : Codec) (s : Sys) (e : SEv) (n) : ((s.step K e).cli n).ser = (s.cli n).ser := by
  rw [sys_step_cli]; exact (run_const K _ _).2.1
theorem sys_run_ser (K : Codec) (s : Sys) (es : List SEv) (n) : ((s.run K es).cli n).ser = (s.cli n).ser := by
  rw [sys_run_cli]; exact (run_const K _ _).2.1

theorem asked_ser {K : Codec} {c : Cli} {es q} (h : q ∈ c.asked K es) : q.ser = c.ser := (asked_ids K es c).2.2.1 q h

/-- what a step does to the queue of a client -/
theorem down_step {K : Codec} {s : Sys} (e : SEv) (n : Bytes) :
    (∃ i, e = .loseDown n i ∧ (s.step K e).down n = (s.down n).eraseIdx i ∧ s.cliEvs n e = [] ∧ (s.srv.run (s.srvEvs e)).2 = []) ∨
    ((∀ i, e ≠ .loseDown n i) ∧ (∀ P w, s.cliEvs n e ≠ [.recv P w]) ∧
      (s.step K e).down n = s.down n ++ sentTo n (s.srv.run (s.srvEvs e)).2) ∨
    (∃ P junk ser w, e = .deliver n P junk ∧ (s.cli n).sockOpen = true ∧ s.down n = (ser, w) :: (s.step K e).down n ∧
      s.cliEvs n e = [.recv P (if ser = (s.cli n).ser then w else junk)] ∧ (s.srv.run (s.srvEvs e)).2 = []) := by
  have hsrv : ∀ (s' : Sys) ev, s'.down = s.down → s'.srv = s.srv → (s'.server ev).down n = s.down n ++ sentTo n (s.srv.run [ev]).2 := by
    intro s' ev h1 h2
    simp [Sys.server, Srv.run, h1, h2]
  cases e with
  | request n' E t a o rt sy =>
    refine .inr (.inl ⟨by simp, ?_, by simp [Sys.step, Sys.client, Sys.srvEvs, Srv.run, sentTo]⟩)
    intro P w; simp only [Sys.cliEvs]; split <;> simp
  | forget n' k =>
    refine .inr (.inl ⟨by simp, ?_, by simp [Sys.step, Sys.client, Sys.srvEvs, Srv.run, sentTo]⟩)
    intro P w; simp only [Sys.cliEvs]; split <;> simp
  | closeClient n' =>
    refine .inr (.inl ⟨by simp, ?_, by simp [Sys.step, Sys.client, Sys.srvEvs, Srv.run, sentTo]⟩)
    intro P w; simp only [Sys.cliEvs]; split <;> simp
  | ret H r => exact .inr (.inl ⟨by simp, by simp [Sys.cliEvs], hsrv _ _ rfl rfl⟩)
  | publish H k v => exact .inr (.inl ⟨by simp, by simp [Sys.cliEvs], hsrv _ _ rfl rfl⟩)
  | mkProxy H v kw => exact .inr (.inl ⟨by simp, by simp [Sys.cliEvs], hsrv _ _ rfl rfl⟩)
  | loseUp n' i => exact .inr (.inl ⟨by simp, by simp [Sys.cliEvs], by simp [Sys.step, Sys.srvEvs, Srv.run, sentTo]⟩)
  | loseDown n' i =>
    by_cases h : n' = n
    · subst h; exact .inl ⟨i, rfl, by simp [Sys.step, upd], rfl, rfl⟩
    · exact .inr (.inl ⟨by simpa using h, by simp [Sys.cliEvs], by simp [Sys.step, upd, Ne.symm h, Sys.srvEvs, Srv.run, sentTo]⟩)
  | serve n' H =>
    refine .inr (.inl ⟨by simp, by simp [Sys.cliEvs], ?_⟩)
    simp only [Sys.step, Sys.srvEvs]
    cases hu : s.up n' with
    | nil => simp [Srv.run, sentTo]
    | cons m r =>
      simp only
      split
      · exact hsrv _ _ rfl rfl
      · exact hsrv _ _ rfl rfl
  | deliver n' P junk =>
    by_cases ho : (s.cli n').sockOpen = true
    · cases hd : s.down n' with
      | nil =>
        refine .inr (.inl ⟨by simp, ?_, by simp [Sys.step, ho, hd, Sys.srvEvs, Srv.run, sentTo]⟩)
        intro P w
        simp only [Sys.cliEvs]
        split
        · rename_i h; subst h; simp [ho, hd]
        · simp
      | cons p r =>
        obtain ⟨ser, w⟩ := p
        by_cases h : n' = n
        · subst h
          exact .inr (.inr ⟨P, junk, ser, w, rfl, ho, by simp [Sys.step, ho, hd, Sys.client, upd], by simp [Sys.cliEvs, ho, hd], rfl⟩)
        · refine .inr (.inl ⟨by simp, by simp [Sys.cliEvs, h], ?_⟩)
          simp [Sys.step, ho, hd, Sys.client, upd, Ne.symm h, Sys.srvEvs, Srv.run, sentTo]
    · refine .inr (.inl ⟨by simp, ?_, by simp [Sys.step, ho, Sys.srvEvs, Srv.run, sentTo]⟩)
      intro P w
      simp only [Sys.cliEvs]
      split
      · rename_i h; subst h; simp [ho]
      · simp

theorem mem_sentTo {n os p} : p ∈ sentTo n os ↔ .send n p.1 p.2 ∈ os := by
  obtain ⟨ser, w⟩ := p
  simp only [sentTo, List.mem_filterMap]
  constructor
  · rintro ⟨o, ho, h⟩
    cases o <;> simp only [reduceCtorEq] at h
    split at h
    · rename_i h2; subst h2
      simp only [Option.some.injEq, Prod.mk.injEq] at h
      rw [← h.1, ← h.2]; exact ho
    · simp at h
  · intro h
    exact ⟨_, h, by simp⟩

theorem SInv.step {K : Codec} {s : Sys} {e : SEv} (h : SInv K s) (hf : ∀ H, e.heap? = some H → Fits K H) : SInv K (s.step K e) := by
  have hwf : (s.step K e).srv.clients.WF := by
    rw [sys_step_srv]
    have : ∀ ev, (s.srv.step ev).1.clients.WF := by
      intro ev
      rw [step_clients']
      repeat' split
      all_goals first | exact h.wf | exact Dict.wf_set h.wf _ _
    cases hse : s.srvEvs e with
    | nil => exact h.wf
    | cons ev l =>
      have : l = [] := by
        cases e <;> simp only [Sys.srvEvs, List.cons.injEq, reduceCtorEq] at hse <;> try exact hse.2.symm
        split at hse
        · simp at hse
        · simp only [List.cons.injEq] at hse; exact hse.2.symm
      subst this
      exact this ev
  have hknown : ∀ n st, (s.step K e).srv.clients.get? n = some st → st = ((s.step K e).cli n).ser.name := by
    intro n st
    rw [sys_step_ser, sys_step_srv]
    cases e with
    | request n' E t a o rt sy => exact h.known n st
    | forget n' k => exact h.known n st
    | closeClient n' => exact h.known n st
    | deliver n' P junk => exact h.known n st
    | ret H r =>
      simp only [Sys.srvEvs, Srv.run]
      rw [step_clients']; exact h.known n st
    | publish H k v =>
      simp only [Sys.srvEvs, Srv.run]
      rw [step_clients']; exact h.known n st
    | mkProxy H v kw => exact h.known n st
    | loseUp n' i => exact h.known n st
    | loseDown n' i => exact h.known n st
    | serve n' H =>
      simp only [Sys.srvEvs]
      obtain ⟨A, hA, hAs⟩ := h.up n'
      cases hu : s.up n' with
      | nil => exact h.known n st
      | cons m r =>
        rw [hu] at hA
        cases A with
        | nil => simp at hA
        | cons q A =>
          simp only [List.map_cons, List.cons.injEq] at hA
          obtain ⟨rfl, rfl⟩ := hA
          simp only [Srv.run]
          rw [step_clients']
          simp only
          split
          · rw [readOne_parts (hf H rfl)]
            simp only [Dict.get?_set]
            split
            · rename_i hn; subst hn
              intro hst
              simp only [Option.some.injEq] at hst
              rw [← hst, hAs q List.mem_cons_self]
            · exact h.known n st
          · exact h.known n st
  refine ⟨hwf, hknown, ?_, ?_⟩
  · intro n
    obtain ⟨A, hA, hAs⟩ := h.up n
    obtain ⟨tk, A', _, h2, h3, _⟩ := up_step hf hA
    refine ⟨A', h2, fun q hq => ?_⟩
    rw [sys_step_ser]
    rcases List.mem_append.1 (h3.subset (List.mem_append_right _ hq)) with h4 | h4
    · exact hAs q h4
    · exact asked_ser h4
  · intro n p hp
    rw [sys_step_ser]
    rcases down_step (K := K) e n (s := s) with ⟨_, _, h2, _⟩ | ⟨_, _, h2⟩ | ⟨P, junk, ser, w, _, _, h2, _⟩
    · rw [h2] at hp; exact h.down n p (List.mem_of_mem_eraseIdx hp)
    · rw [h2] at hp
      rcases List.mem_append.1 hp with hp | hp
      · exact h.down n p hp
      · have hs := mem_sentTo.1 hp
        cases hse : s.srvEvs e with
        | nil => rw [hse] at hs; simp [Srv.run] at hs
        | cons ev l =>
          have : l = [] := by
            cases e <;> simp only [Sys.srvEvs, List.cons.injEq, reduceCtorEq] at hse <;> try exact hse.2.symm
            split at hse
            · simp at hse
            · simp only [List.cons.injEq] at hse; exact hse.2.symm
          subst this
          rw [hse] at hs
          simp only [Srv.run, List.append_nil] at hs
          obtain ⟨h3, _⟩ := step_sends h.wf hs
          have hk := hknown n
          rw [sys_step_srv, hse] at hk
          simp only [Srv.run] at hk
          cases hg : (s.srv.step ev).1.clients.get? n with
          | none => rw [hg] at h3; simp at h3
          | some st =>
            rw [hg, hk st hg, sys_step_ser] at h3
            simp only [Option.bind_some, serOf_name, Option.some.injEq] at h3
            exact h3.symm
    · exact h.down n p (by rw [h2]; exact List.mem_cons_of_mem _ hp)

theorem SInv.run {K : Codec} : ∀ {es : List SEv} {s : Sys}, SInv K s → (∀ e ∈ es, ∀ H, e.heap? = some H → Fits K H) → SInv K (s.run K es)
  | [], _, h, _ => h
  | e :: es, s, h, hf => by
    show SInv K ((s.step K e).run K es)
    exact SInv.run (h.step (hf e List.mem_cons_self)) (fun e he => hf e (List.mem_cons_of_mem _ he))

theorem SInv.init {K : Codec} {srv : Srv} (h : srv.clients = []) (sers) : SInv K (Sys.init srv sers) where
  wf := by simp [Sys.init, h, Dict.WF]
  known := by intro n st hs; simp [Sys.init, h] at hs
  up := fun n => ⟨[], rfl, by simp⟩
  down := by intro n p hp; simp [Sys.init] at hp

/-- whatever a client reads was sent to it by the server, in the same run -/
theorem read_sent {K : Codec} {n : Bytes} : ∀ {es : List SEv} {s : Sys}, SInv K s → (∀ e ∈ es, ∀ H, e.heap? = some H → Fits K H) →
    ∀ {P w}, .recv P w ∈ s.cliHist K n es → ((s.cli n).ser, w) ∈ s.down n ∨ .send n (s.cli n).ser w ∈ s.outs K es
  | [], _, _, _, _, _, h => by simp [Sys.cliHist] at h
  | e :: es, s, hi, hf, P, w, h => by
    simp only [Sys.cliHist, List.mem_append] at h
    rw [outs_cons, List.mem_append]
    rcases h with h | h
    · rcases down_step (K := K) e n (s := s) with ⟨_, _, _, h2, _⟩ | ⟨_, h2, _⟩ | ⟨P', junk, ser, w', _, _, h2, h3, _⟩
      · rw [h2] at h; simp at h
      · exfalso
        have : s.cliEvs n e = [.recv P w] := by
          revert h
          cases e <;> simp only [Sys.cliEvs] <;> (repeat' split) <;> simp_all
        exact h2 P w this
      · rw [h3] at h
        simp only [List.mem_singleton, CEv.recv.injEq] at h
        have hser := hi.down n (ser, w') (by rw [h2]; exact List.mem_cons_self)
        simp only at hser
        rw [if_pos hser] at h
        exact .inl (by rw [h2, h.2, hser]; exact List.mem_cons_self)
    · have ih := read_sent (hi.step (hf e List.mem_cons_self)) (fun e he => hf e (List.mem_cons_of_mem _ he)) h
      rw [sys_step_ser] at ih
      rcases ih with ih | ih
      · rcases down_step (K := K) e n (s := s) with ⟨_, _, h2, _⟩ | ⟨_, _, h2⟩ | ⟨P', junk, ser, w', _, _, h2, h3, _⟩
        · rw [h2] at ih; exact .inl (List.mem_of_mem_eraseIdx ih)
        · rw [h2] at ih
          rcases List.mem_append.1 ih with ih | ih
          · exact .inl ih
          · exact .inr (.inl (mem_sentTo.1 ih))
        · exact .inl (by rw [h2]; exact List.mem_cons_of_mem _ ih)
      · exact .inr (.inr ih)

/-! ## Futures and replies -/

theorem fut_none_step {K : Codec} {c : Cli} (hi : c.Inv) (e : CEv) (k : Nat) (hf : c.fut k = none) :
    (c.step K e).1.fut k = none ∨ (c.step K e).1.fut k = some .pending := by
  have ht : c.table.get? k = none := by
    cases h : c.table.get? k with
    | none => rfl
    | some b => have := hi.pend k b h; rw [Cli.fut] at hf; rw [hf] at this; simp at this
  cases e with
  | drop k' => left; simp only [Cli.step, Cli.drop, Cli.fut, Dict.get?_erase]; split; rfl; exact hf
  | close => exact .inl hf
  | send E t a o rt sy =>
    have hc := send_cases K E t c a o rt sy
    have hs : (c.step K (.send E t a o rt sy)).1 = (c.send K E t a o rt sy).2.1 := rfl
    rw [hs]
    generalize (c.send K E t a o rt sy).2.1 = c' at *
    generalize (c.send K E t a o rt sy).2.2.1 = m at *
    generalize (c.send K E t a o rt sy).2.2.2 = r at *
    cases hc with
    | disconnected _ => exact .inl hf
    | failed _ => left; split <;> exact hf
    | off _ _ _ => exact .inl hf
    | sent _ _ _ _ _ =>
      simp only [Cli.fut, Dict.get?_set]
      split
      · exact .inr rfl
      · exact .inl hf
    | invalid _ _ _ _ _ => exact .inl hf
  | recv P w =>
    left
    simp only [Cli.step, Cli.receive]
    split
    · exact hf
    · split
      · exact hf
      · rename_i msg hm
        have hc := processMsg_cases P c msg
        generalize (c.processMsg P msg).1 = c' at hc ⊢
        generalize (c.processMsg P msg).2 = r at hc
        have hgone : ∀ c2 : Cli, c2.fut k = none → c2.table.get? k = none → c2.serverDisconnected.fut k = none := by
          intro c2 h1 h2
          rw [Cli.fut] at h1 ⊢
          simp [Cli.serverDisconnected, gone_get, h1, h2]
        have hne : ∀ k' b, c.table.get? k' = some b → k' ≠ k := by
          rintro k' b h rfl; rw [ht] at h; simp at h
        cases hc with
        | ignored _ _ _ => exact hf
        | lost _ _ _ _ _ => exact hf
        | set _ _ h _ _ => simpa [Cli.fut, Dict.get?_set, hne _ _ h] using hf
        | closed _ _ h _ =>
          apply hgone
          · simpa [Cli.fut, Dict.get?_set, hne _ _ h] using hf
          · simp [Dict.get?_erase, hne _ _ h, ht]
        | disconnect _ _ => exact hgone _ hf ht

/-- a future done by a reply was done by reading a reply that says so -/
theorem fut_origin {K : Codec} {k : Nat} {f : Fut} (ha : f.answered) : ∀ {es : List CEv} {c : Cli}, c.Inv → (c.run K es).1.fut k = some f →
    c.fut k = some f ∨ ∃ P w d, .recv P w ∈ es ∧ c.reads P w d ∧ IsReply P d k ∧ Says P d f
  | [], _, _, h => .inl h
  | e :: es, c, hi, h => by
    rcases fut_origin ha (es := es) (step_inv (K := K) e hi) h with h1 | ⟨P, w, d, h1, h2, h3, h4⟩
    · cases hc : c.fut k with
      | none =>
        rcases fut_none_step (K := K) hi e k hc with h2 | h2
        · rw [h1] at h2; simp at h2
        · rw [h1] at h2; simp only [Option.some.injEq] at h2; subst h2; exact ha.elim
      | some f0 =>
        rcases fut_step (K := K) hi e k hc with h2 | ⟨_, h2⟩ | ⟨_, P, w, d, rfl, hr, ⟨f', h3, h4, h5⟩ | ⟨_, h5⟩⟩
        · rw [h1] at h2; exact .inl h2.symm
        · rw [h1] at h2; simp at h2
        · rw [h1] at h5; simp only [Option.some.injEq] at h5; subst h5
          exact .inr ⟨P, w, d, List.mem_cons_self, hr, h3, h4⟩
        · rw [h1] at h5; simp only [Option.some.injEq] at h5; subst h5; exact ha.elim
    · refine .inr ⟨P, w, d, List.mem_cons_of_mem _ h1, ?_, h3, h4⟩
      rw [Cli.reads, (step_const' K c e).2.1] at h2
      exact h2

/-! ## Where replies and running code come from -/

theorem run_out_split {x : Out} : ∀ {es : List Ev} {s : Srv}, x ∈ (s.run es).2 → ∃ pre e post, es = pre ++ e :: post ∧ x ∈ ((s.run pre).1.step e).2
  | [], _, h => by simp [Srv.run] at h
  | e :: es, s, h => by
    simp only [Srv.run, List.mem_append] at h
    rcases h with h | h
    · exact ⟨[], e, es, rfl, h⟩
    · obtain ⟨pre, e', post, rfl, h2⟩ := run_out_split h
      exact ⟨e :: pre, e', post, rfl, h2⟩

theorem run_wf {s : Srv} (h : s.clients.WF) (es : List Ev) : (s.run es).1.clients.WF := by
  rw [run_clients]; exact addClients_wf _ _ h

theorem srv_run_snoc (s : Srv) (es : List Ev) (e : Ev) : (s.run (es ++ [e])).1 = ((s.run es).1.step e).1 := by
  rw [run_append_state]; rfl

/-- running code was started by a message read before, and stayed on the stack ever since -/
theorem stack_origin {f : Frame} {st : List Frame} : ∀ {es : List Ev} {s : Srv}, f :: st <:+ (s.run es).1.stack →
    (∀ a b, es = a ++ b → f :: st <:+ (s.run a).1.stack) ∨
    ∃ pre H parts mid, es = pre ++ .recv H (f.caller :: parts) :: mid ∧ (s.run pre).1.stack = st ∧
      Begins (s.run pre).1 H f.caller parts f.reqId f.returnType f.task ∧
      ∀ a b, mid = a ++ b → f :: st <:+ (s.run (pre ++ .recv H (f.caller :: parts) :: a)).1.stack
  | [], s, h => .inl (by
      intro a b hab
      have : a = [] := by
        cases a with
        | nil => rfl
        | cons x l => simp at hab
      subst this; exact h)
  | e :: es, s, h => by
    rcases stack_origin (es := es) (s := (s.step e).1) h with h1 | ⟨pre, H, parts, mid, rfl, h2, h3, h4⟩
    · have h0 := h1 [] es rfl
      have hkeep : f :: st <:+ s.stack → ∀ a b, e :: es = a ++ b → f :: st <:+ (s.run a).1.stack := by
        intro hs a b hab
        cases a with
        | nil => exact hs
        | cons e' a =>
          simp only [List.cons_append, List.cons.injEq] at hab
          obtain ⟨rfl, rfl⟩ := hab
          exact h1 a b rfl
      have hc := step_cases s e
      simp only [Srv.run] at h0
      generalize hs' : (s.step e).1 = s' at hc h0 h1
      generalize (s.step e).2 = os at hc
      cases hc with
      | idle _ _ hst _ _ _ _ => rw [hst] at h0; exact .inl (hkeep h0)
      | @start H parts c m ser opts o task hs hr hser hu hp ha =>
        rcases List.suffix_cons_iff.1 h0 with h0 | h0
        · right
          simp only [List.cons.injEq] at h0
          obtain ⟨rfl, rfl⟩ := h0
          have hparts : ∃ ps, parts = c :: ps := by
            cases parts with
            | nil => simp [readOne] at hr
            | cons p ps => exact ⟨ps, by rw [readOne_name hr]⟩
          obtain ⟨ps, rfl⟩ := hparts
          refine ⟨[], H, ps, es, rfl, rfl, ⟨m.action, m.serType, m.opts, ser, opts, o, hr, hs, hser, hp, ha⟩, ?_⟩
          intro a b hab
          have := h1 a b hab
          rw [← hs'] at this
          exact this
        · exact .inl (hkeep h0)
      | @refused H parts c m x hs hr hx =>
        obtain ⟨t, b, d, hf, _⟩ := finish_state H { s with clients := s.clients.set c m.serType } c m.reqId m.returnType (decide (m.action = "close")) (.error x)
        rw [hf] at h0
        exact .inl (hkeep h0)
      | @answered H parts c m ser opts s1 o r hs hr hser hu hp ha =>
        obtain ⟨t, b, d, hf, _⟩ := finish_state H s1 c m.reqId m.returnType (decide (m.action = "close")) r
        rw [hf] at h0
        have h10 := action_state H { s with clients := s.clients.set c m.serType } c m.action opts
        rw [ha] at h10
        obtain ⟨⟨_, _, _, _, h9, _⟩, _⟩ := h10
        rw [h9] at h0
        exact .inl (hkeep h0)
      | @ended H r0 c k rt task st' hst =>
        obtain ⟨t, b, d, hf, _⟩ := finish_state H { s with stack := st' } c k rt false (task.result H r0)
        rw [hf] at h0
        refine .inl (hkeep ?_)
        rw [hst]
        exact h0.trans (List.suffix_cons _ _)
    · exact .inr ⟨e :: pre, H, parts, mid, rfl, h2, h3, h4⟩

theorem live_at {idOf : Obj → Nat} {addr tys self} {pre : List Ev} {e : Ev} {post : List Ev}
    (h : LiveRun idOf (Srv.init addr tys self) (pre ++ e :: post)) : LiveTable e.heap ((Srv.init addr tys self).run pre).1.refs := by
  obtain ⟨h1, h2, h3, _⟩ := liveRun_append _ _ _ h
  obtain ⟨h', hr⟩ := run_reach pre (Srv.init addr tys self) [] .init h1
  rw [← h2] at hr
  exact LiveTable.of_reach hr h3

theorem completes_state {s : Srv} {e : Ev} {c k rt r s1} (h : Completes s e c k rt r s1) : Path e.heap.idOf e.heap.ident s.refs s1.refs ∧
    s1.addr = s.addr ∧ s1.tys = s.tys := by
  rcases h with ⟨o, h⟩ | ⟨H, parts, m, x, ser, rfl, _, _, _, _, _, _, _, rfl⟩
  · cases e with
    | recv H parts =>
      obtain ⟨a, st, b, ser, opts, h1, _, h5, h6, h7, h8⟩ := h
      have hp := action_path H { s with clients := s.clients.set c st } c a opts
      have hs := action_state H { s with clients := s.clients.set c st } c a opts
      rw [h8] at hp hs
      obtain ⟨⟨t, n, b1, b2, h9, _⟩, _⟩ := hs
      exact ⟨hp, by rw [h9], by rw [h9]⟩
    | ret H r0 =>
      obtain ⟨task, st, h1, h2, h3, h4⟩ := h
      subst h3
      exact ⟨Path.refl _ _ _, rfl, rfl⟩
    | publish H n v => exact h.elim
    | mkProxy H v kw => exact h.elim
  · exact ⟨Path.refl _ _ _, rfl, rfl⟩

theorem run_const_srv : ∀ (es : List Ev) (s : Srv), (s.run es).1.tys = s.tys ∧ (s.run es).1.addr = s.addr
  | [], _ => ⟨rfl, rfl⟩
  | e :: es, s => by
    have h1 := step_const s e
    have h2 := run_const_srv es (s.step e).1
    exact ⟨h2.1.trans h1.1, h2.2.trans h1.2⟩

theorem srvHist_heap {K : Codec} : ∀ {es : List SEv} {s : Sys} {e : Ev}, e ∈ s.srvHist K es → ∃ se ∈ es, se.heap? = some e.heap
  | [], _, _, h => by simp [Sys.srvHist] at h
  | se :: es, s, e, h => by
    simp only [Sys.srvHist, List.mem_append] at h
    rcases h with h | h
    · refine ⟨se, List.mem_cons_self, ?_⟩
      cases se <;> simp only [Sys.srvEvs, List.mem_singleton, List.not_mem_nil] at h
      · split at h
        · simp at h
        · simp only [List.mem_singleton] at h; subst h; rfl
      all_goals (subst h; rfl)
    · obtain ⟨se', h1, h2⟩ := srvHist_heap h
      exact ⟨se', List.mem_cons_of_mem _ h1, h2⟩

theorem cliHist_recv {K : Codec} {n} : ∀ {es : List SEv} {s : Sys} {P w}, .recv P w ∈ s.cliHist K n es → ∃ junk, .deliver n P junk ∈ es
  | [], _, _, _, h => by simp [Sys.cliHist] at h
  | se :: es, s, P, w, h => by
    simp only [Sys.cliHist, List.mem_append] at h
    rcases h with h | h
    · cases se <;> simp only [Sys.cliEvs, List.not_mem_nil] at h
      case deliver n' P' junk =>
        split at h
        · rename_i hn; subst hn
          split at h
          · split at h
            · simp at h
            · simp only [List.mem_singleton, CEv.recv.injEq] at h
              exact ⟨junk, by rw [h.1]; exact List.mem_cons_self⟩
          · simp at h
        · simp at h
      all_goals (split at h <;> simp at h)
    · obtain ⟨j, h1⟩ := cliHist_recv h
      exact ⟨j, List.mem_cons_of_mem _ h1⟩

/-- distinct requests have distinct ids -/
theorem asked_unique {K : Codec} {c : Cli} {es : List CEv} {q q' : Asked} (h : q ∈ c.asked K es) (h' : q' ∈ c.asked K es) (he : q.id = q'.id)
    (hn : q.id ≠ -1) : q = q' := by
  have h4 := (asked_ids K es c).2.2.2
  have m : q ∈ (c.asked K es).filter (fun q => decide (q.id ≠ -1)) := List.mem_filter.2 ⟨h, by simp [hn]⟩
  have m' : q' ∈ (c.asked K es).filter (fun q => decide (q.id ≠ -1)) := List.mem_filter.2 ⟨h', by simp [← he, hn]⟩
  revert m m' h4
  generalize (c.asked K es).filter (fun q => decide (q.id ≠ -1)) = l
  intro h4 m m'
  induction l with
  | nil => simp at m
  | cons a l ih =>
    obtain ⟨h5, h6⟩ := List.pairwise_cons.1 h4
    rcases List.mem_cons.1 m with e1 | m1
    · rcases List.mem_cons.1 m' with e2 | m2
      · rw [e1, e2]
      · have := h5 _ m2; rw [← e1] at this; omega
    · rcases List.mem_cons.1 m' with e2 | m2
      · have := h5 _ m1; rw [← e2] at this; omega
      · exact ih h6 m1 m2

/-- every completed request is an execution of a message -/
theorem execution_of {srv : Srv} (h0 : srv.stack = []) {pre : List Ev} {e : Ev} {post c k rt r s1}
    (h : Completes (srv.run pre).1 e c k rt r s1) : ∃ H0 parts, .recv H0 (c :: parts) ∈ pre ++ [e] ∧
      (∃ m, readOne H0 (c :: parts) = .ok (c, m) ∧ m.reqId = k ∧ m.returnType = rt) ∧
      Execution srv (pre ++ e :: post) c parts k rt e.heap r s1 ((srv.run pre).1.step e).1 := by
  have hrecv : ∀ H parts, e = .recv H parts → (∃ m, readOne H parts = .ok (c, m) ∧ m.reqId = k ∧ m.returnType = rt) → ∃ H0 parts, .recv H0 (c :: parts) ∈ pre ++ [e] ∧
      (∃ m, readOne H0 (c :: parts) = .ok (c, m) ∧ m.reqId = k ∧ m.returnType = rt) ∧
      Execution srv (pre ++ e :: post) c parts k rt e.heap r s1 ((srv.run pre).1.step e).1 := by
    rintro H parts rfl ⟨m, hr, hk, hrt⟩
    have hparts : ∃ ps, parts = c :: ps := by
      cases parts with
      | nil => simp [readOne] at hr
      | cons p ps => exact ⟨ps, by rw [readOne_name hr]⟩
    obtain ⟨ps, rfl⟩ := hparts
    refine ⟨H, ps, by simp, ⟨m, hr, hk, hrt⟩, ?_⟩
    rw [← srv_run_snoc]
    exact .atOnce rfl h
  rcases id h with ⟨o, h1⟩ | ⟨H, parts, m, x, ser, he, _, hr, hk, hrt, _⟩
  · cases e with
    | recv H parts =>
      obtain ⟨a, st, b, ser, opts, h2, _⟩ := h1
      exact hrecv H parts rfl ⟨_, h2, rfl, rfl⟩
    | ret H r0 =>
      obtain ⟨task, st, h2, rfl, rfl, _⟩ := h1
      have hsuf : (⟨c, k, rt, task⟩ : Frame) :: st <:+ (srv.run pre).1.stack := by rw [h2]; exact List.suffix_refl _
      rcases stack_origin hsuf with h3 | ⟨p, H0, parts, mid, rfl, h3, h4, h5⟩
      · have := h3 [] pre rfl
        simp only [Srv.run, h0] at this
        simp at this
      · obtain ⟨a, st', b, ser, opts, o, g1, _⟩ := id h4
        refine ⟨H0, parts, by simp, ⟨_, g1, rfl, rfl⟩, ?_⟩
        rw [← srv_run_snoc]
        rw [← h3] at h2
        have := Execution.later (srv := srv) (hist := p ++ .recv H0 (c :: parts) :: (mid ++ .ret H r0 :: post)) (k := k) (rt := rt) rfl h4 (by
          intro a b hab
          obtain ⟨l, hl⟩ := h5 a b hab
          exact ⟨l, by rw [h3]; exact hl.symm⟩) h2
        rw [h3] at this
        simpa [Ev.heap] using this
    | publish H n v => exact h1.elim
    | mkProxy H v kw => exact h1.elim
  · exact hrecv H parts he ⟨m, hr, hk, hrt⟩

end Verif
