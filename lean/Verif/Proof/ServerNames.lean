import Verif.Proof.ServerReply
/-! # Published names, known clients and closing -/
namespace Verif

theorem process_split (H : Heap) (s : Srv) (c : Bytes) (m : Msg) :
    (∃ e, s.process H c m = ({ s with clients := s.clients.set c m.serType } : Srv).finish H c m.reqId m.returnType (decide (m.action = "close")) (.error e) ∧
      (serOf m.serType = none ∨ H.utf8 c = none ∨ ∃ ser, serOf m.serType = some ser ∧ m.payload H s ser = .error e)) ∨
    ∃ ser cs opts, serOf m.serType = some ser ∧ H.utf8 c = some cs ∧ m.payload H s ser = .ok opts ∧
      ((∃ s1 o r, Srv.action H { s with clients := s.clients.set c m.serType } c m.action opts = .finished s1 o r ∧
        s.process H c m = ((s1.finish H c m.reqId m.returnType (decide (m.action = "close")) r).1,
          o ++ (s1.finish H c m.reqId m.returnType (decide (m.action = "close")) r).2)) ∨
       (∃ s1 o task, Srv.action H { s with clients := s.clients.set c m.serType } c m.action opts = .running s1 o task ∧
        s.process H c m = ({ s1 with stack := ⟨c, m.reqId, m.returnType, task⟩ :: s1.stack }, o))) := by
  unfold Srv.process
  simp only
  split
  · rename_i h; exact Or.inl ⟨_, rfl, Or.inl h⟩
  · rename_i ser hser
    split
    · rename_i h; exact Or.inl ⟨_, rfl, Or.inr (Or.inl h)⟩
    · rename_i cs hcs
      rw [payload_eq]
      change (_ ∨ _)
      have hpl : m.payload H { s with clients := s.clients.set c m.serType } ser = m.payload H s ser := rfl
      rw [hpl]
      cases hp : m.payload H s ser with
      | error e => exact Or.inl ⟨_, rfl, Or.inr (Or.inr ⟨ser, hser, hp⟩)⟩
      | ok opts =>
        refine Or.inr ⟨ser, cs, opts, hser, hcs, hp, ?_⟩
        simp only
        generalize Srv.action H { s with clients := s.clients.set c m.serType } c m.action opts = st
        cases st with
        | finished s1 o r => exact Or.inl ⟨s1, o, r, rfl, rfl⟩
        | running s1 o task => exact Or.inr ⟨s1, o, task, rfl, rfl⟩

/-! ## Names -/

/-- the names after the start of an action -/
def Started.ns : Started → Dict Key Val
  | .finished s _ _ => s.ns
  | .running s _ _ => s.ns

theorem action_ns (H : Heap) (s : Srv) (c a opts) : (s.action H c a opts).ns =
    if a = "set_item" then
      match optGet H opts "obj", (optGet H opts "name").bind (keyOf H) with
      | .ok v, .ok k => s.ns.set k v
      | _, _ => s.ns
    else s.ns := by
  unfold Srv.action
  split
  · rw [if_neg (by decide)]; split
    · rfl
    · split <;> rfl
  · rfl
  · rw [if_neg (by decide)]
    obtain ⟨t, h⟩ := deleteAction_state H s opts
    generalize s.deleteAction H opts = x at h ⊢
    obtain ⟨s1, r⟩ := x
    simp only at h; subst h; rfl
  · rfl
  · rw [if_pos rfl]
    cases h1 : optGet H opts "obj" with
    | error e => rfl
    | ok v =>
      cases h2 : optGet H opts "name" with
      | error e => rfl
      | ok n =>
        cases h3 : keyOf H n with
        | error e =>
          simp only [bind, Except.bind, h3]; rfl
        | ok k => simp only [bind, Except.bind, h3, pure, Except.pure]; rfl
  · rw [if_neg (by decide)]; split
    · rfl
    · split <;> rfl
  · rfl
  · rw [if_neg (by decide)]
    obtain ⟨b, h, _⟩ := closeAction_state s c
    generalize s.closeAction c = x at h ⊢
    obtain ⟨s1, o, r⟩ := x
    simp only at h; subst h; rfl
  · rename_i h1 h2 h3 h4 h5 h6 h7 h8
    rw [if_neg h5]; rfl

theorem finish_ns (H : Heap) (s : Srv) (c k rt cl r) : (s.finish H c k rt cl r).1.ns = s.ns := by
  obtain ⟨t, b, d, h, _⟩ := finish_state H s c k rt cl r
  rw [h]

theorem finish_clients (H : Heap) (s : Srv) (c k rt cl r) : (s.finish H c k rt cl r).1.clients = s.clients := by
  obtain ⟨t, b, d, h, _⟩ := finish_state H s c k rt cl r
  rw [h]

theorem step_ns (s : Srv) (e : Ev) : (s.step e).1.ns = match s.written e with
    | some (k, v) => s.ns.set k v
    | none => s.ns := by
  cases e with
  | ret H r =>
    simp only [Srv.step, Srv.written]
    split
    · rfl
    · rw [finish_ns]
  | mkProxy H v kw => rfl
  | publish H n v =>
    simp only [Srv.step, Srv.written]
    cases keyOf H n <;> rfl
  | recv H parts =>
    simp only [Srv.step, Srv.written]
    by_cases h1 : s.closed || s.dead
    · simp [h1]
    · have h1 : (s.closed || s.dead) = false := by simpa using h1
      by_cases h2 : s.sockOpen = false
      · simp [h1, h2]
      · have h2 : s.sockOpen = true := by simpa using h2
        simp only [h1, h2, Bool.or_false, Bool.not_true, Bool.false_eq_true, if_false, Bool.true_eq_false]
        cases hr : readOne H parts with
        | error e => rfl
        | ok x =>
          obtain ⟨c, m⟩ := x
          simp only
          rcases process_split H s c m with ⟨e, h, hc⟩ | ⟨ser, cs, opts, h3, h4, h5, h⟩
          · rw [h, finish_ns]
            rcases hc with hc | hc | ⟨ser, hc, hp⟩
            · simp only [hc]
            · simp only [hc]; cases serOf m.serType <;> rfl
            · cases hu : H.utf8 c <;> simp only [hc, hp]
          · have ha := action_ns H { s with clients := s.clients.set c m.serType } c m.action opts
            simp only [h3, h4, h5]
            rcases h with ⟨s1, o, r, h6, h⟩ | ⟨s1, o, task, h6, h⟩
            · rw [h6] at ha
              rw [h, finish_ns]
              simp only [Started.ns] at ha
              rw [ha]
              split
              · cases optGet H opts "obj" <;> cases (optGet H opts "name").bind (keyOf H) <;> rfl
              · rfl
            · rw [h6] at ha
              rw [h]
              simp only [Started.ns] at ha
              simp only [ha]
              split
              · cases optGet H opts "obj" <;> cases (optGet H opts "name").bind (keyOf H) <;> rfl
              · rfl

theorem lastOf_nil {κ ν : Type} [DecidableEq κ] (k : κ) : lastOf ([] : List (κ × ν)) k = none := rfl
theorem lastOf_cons {κ ν : Type} [DecidableEq κ] (w : κ × ν) (ws : List (κ × ν)) (k : κ) :
    lastOf (w :: ws) k = (lastOf ws k).or (if w.1 = k then some w.2 else none) := by
  simp only [lastOf, List.reverse_cons, List.find?_append, List.find?_cons, List.find?_nil]
  cases ws.reverse.find? (fun w => decide (w.1 = k)) with
  | some x => simp
  | none =>
    by_cases h : w.1 = k <;> simp [h]

theorem lastOf_append {κ ν : Type} [DecidableEq κ] (a b : List (κ × ν)) (k : κ) :
    lastOf (a ++ b) k = (lastOf b k).or (lastOf a k) := by
  induction a with
  | nil => simp [lastOf_nil]
  | cons w a ih => rw [List.cons_append, lastOf_cons, ih, lastOf_cons, Option.or_assoc]

theorem run_ns : ∀ (es : List Ev) (s : Srv) (k : Key), (s.run es).1.ns.get? k = (lastOf (s.writes es) k).or (s.ns.get? k)
  | [], s, k => by simp [Srv.run, Srv.writes, lastOf_nil]
  | e :: es, s, k => by
    simp only [Srv.run, Srv.writes]
    rw [run_ns es, step_ns s e]
    cases h : s.written e with
    | none => simp
    | some w =>
      obtain ⟨k', v⟩ := w
      simp only [Option.toList_some, List.cons_append, List.nil_append, lastOf_cons, Dict.get?_set, Option.or_assoc]
      split <;> simp

/-! ## Known clients -/

theorem sendResult_noAccept {H : Heap} {s : Srv} {c k v e b s' o} (h : s.sendResult H c k v e b = (s', .ok o)) :
    ∃ ser w, o = [.send c ser w] ∧ s.sockOpen = true := by
  unfold Srv.sendResult at h
  split at h
  · simp at h
  · split at h
    · simp at h
    · rename_i ser _
      split at h
      · simp at h
      · split at h
        · simp at h
        · rename_i t w _
          split at h
          · rename_i ho
            simp only [Prod.mk.injEq, Except.ok.injEq] at h
            exact ⟨ser, w, h.2.symm, ho⟩
          · simp at h

theorem sendError_noAccept {H : Heap} {s : Srv} {c k e s' o} (h : s.sendError H c k e = (s', .ok o)) :
    ∃ ser w, o = [.send c ser w] ∧ s.sockOpen = true := by
  unfold Srv.sendError at h
  split at h
  · simp at h
  · exact sendResult_noAccept h

theorem respond_noAccept (H : Heap) (s : Srv) (c k rt r) :
    (0 ≤ k ∧ s.sockOpen = true ∧ ∃ ser w, (s.respond H c k rt r).2.1 = [.send c ser w]) ∨ 
    (0 ≤ k ∧ (s.respond H c k rt r).2.1 = [] ∧ (s.respond H c k rt r).2.2 ≠ none) ∨
    (k < 0 ∧ (s.respond H c k rt r).2.2 = none ∧ ((s.respond H c k rt r).2.1 = [] ∨ ∃ e, (s.respond H c k rt r).2.1 = [.hook e])) := by
  unfold Srv.respond
  split
  · rename_i hk
    have hE : ∀ (s : Srv) e, (s.sockOpen = true ∧ ∃ ser w, (match s.sendError H c k e with
        | (s, .ok o) => (s, o, none)
        | (s, .error e) => (s, [], some e)).2.1 = [.send c ser w]) ∨ 
        ((match s.sendError H c k e with
        | (s, .ok o) => (s, o, none)
        | (s, .error e) => (s, [], some e)).2.1 = [] ∧ (match s.sendError H c k e with
        | (s, .ok o) => (s, o, none)
        | (s, .error e) => (s, [], some e)).2.2 ≠ none) := by
      intro s e
      have h := @sendError_noAccept H s c k e
      generalize s.sendError H c k e = y at h ⊢
      obtain ⟨s1, r⟩ := y
      cases r with
      | error e => right; simp
      | ok o =>
        obtain ⟨ser, w, h1, h2⟩ := h rfl
        exact Or.inl ⟨h2, ser, w, h1⟩
    cases r with
    | error e =>
      simp only
      rcases hE s e with ⟨h1, h2⟩ | h
      · exact Or.inl ⟨hk, h1, h2⟩
      · exact Or.inr (Or.inl ⟨hk, h⟩)
    | ok v =>
      simp only
      obtain ⟨t, ht⟩ := convert_state H s rt v
      generalize s.convert H rt v = y at ht ⊢
      obtain ⟨s1, v1⟩ := y
      simp only at ht ⊢
      have h := @sendResult_noAccept H s1 c k v1 .none false
      obtain ⟨t2, ht2⟩ := sendResult_state H s1 c k v1 .none false
      generalize s1.sendResult H c k v1 .none = y at h ht2 ⊢
      obtain ⟨s2, r2⟩ := y
      simp only at ht2
      cases r2 with
      | ok o =>
        obtain ⟨ser, w, h1, h2⟩ := h rfl
        rw [ht] at h2
        exact Or.inl ⟨hk, h2, ser, w, h1⟩
      | error e =>
        simp only
        rcases hE s2 e with ⟨h1, h2⟩ | h
        · rw [ht2, ht] at h1; exact Or.inl ⟨hk, h1, h2⟩
        · exact Or.inr (Or.inl ⟨hk, h⟩)
  · rename_i hk
    refine Or.inr (Or.inr ⟨by omega, ?_⟩)
    cases r <;> simp

/-- what `finish` emits -/
theorem finish_shape (H : Heap) (s : Srv) (c k rt cl r) :
    (0 ≤ k ∧ s.sockOpen = true ∧ ∃ ser w x, (s.finish H c k rt cl r).2 = [.send c ser w, .done c k x]) ∨
    (0 ≤ k ∧ ∃ e, (s.finish H c k rt cl r).2 = [.done c k (some e)]) ∨
    (k < 0 ∧ ((s.finish H c k rt cl r).2 = [.done c k none] ∨ ∃ e, (s.finish H c k rt cl r).2 = [.hook e, .done c k none])) := by
  have h := respond_noAccept H s c k rt r
  unfold Srv.finish
  generalize s.respond H c k rt r = y at h ⊢
  obtain ⟨s1, o, x⟩ := y
  simp only at h
  rcases h with ⟨h1, h2, ser, w, h3⟩ | ⟨h1, h2, h3⟩ | ⟨h1, h2, h3⟩
  · left; refine ⟨h1, h2, ser, w, ?_⟩
    subst h3
    cases x
    · exact ⟨none, rfl⟩
    · exact ⟨some _, rfl⟩
  · right; left; refine ⟨h1, ?_⟩
    subst h2
    cases x with
    | none => exact absurd rfl h3
    | some e => exact ⟨e, rfl⟩
  · right; right; refine ⟨h1, ?_⟩
    subst h2
    rcases h3 with rfl | ⟨e, rfl⟩
    · exact Or.inl rfl
    · exact Or.inr ⟨e, rfl⟩

theorem finish_accepted (H : Heap) (s : Srv) (c k rt cl r) : acceptedBy (s.finish H c k rt cl r).2 = [] := by
  rcases finish_shape H s c k rt cl r with ⟨_, _, ser, w, x, h⟩ | ⟨_, e, h⟩ | ⟨_, h | ⟨e, h⟩⟩ <;> rw [h] <;> rfl

theorem neutral_accepted : ∀ {os : List Out}, (∀ x ∈ os, x.neutral) → acceptedBy os = []
  | [], _ => rfl
  | o :: os, h => by
    have h1 := h o (by simp)
    have h2 := neutral_accepted (os := os) (fun x hx => h x (by simp [hx]))
    cases o <;> simp only [Out.neutral] at h1 <;> simpa [acceptedBy] using h2

theorem acceptedBy_append (a b : List Out) : acceptedBy (a ++ b) = acceptedBy a ++ acceptedBy b := by simp [acceptedBy]

/-- adding clients to the table -/
def addClients (cs : Dict Bytes String) (l : List (Bytes × String)) : Dict Bytes String := l.foldl (fun d e => d.set e.1 e.2) cs

theorem step_clients (s : Srv) (e : Ev) : (s.step e).1.clients = addClients s.clients (acceptedBy (s.step e).2) := by
  cases e with
  | ret H r =>
    simp only [Srv.step]
    split
    · rfl
    · rw [finish_clients, finish_accepted]; rfl
  | mkProxy H v kw => rfl
  | publish H n v =>
    simp only [Srv.step]
    split <;> rfl
  | recv H parts =>
    simp only [Srv.step]
    split
    · rfl
    split
    · rfl
    split
    · rfl
    · rename_i c m _
      rcases process_cases H s c m with ⟨s1, o, r, t, n, b1, b2, h, h1, _, h3⟩ | ⟨o, task, h, h1, h2, _⟩
      · rw [h]
        simp only [finish_clients]
        rw [show ∀ (x : Out) l, x :: l = [x] ++ l from fun _ _ => rfl, acceptedBy_append, acceptedBy_append, finish_accepted,
          neutral_accepted h3, h1]
        rfl
      · rw [h]
        rw [show ∀ (x : Out) l, x :: l = [x] ++ l from fun _ _ => rfl, acceptedBy_append, neutral_accepted h1]
        rfl

theorem run_clients : ∀ (es : List Ev) (s : Srv), (s.run es).1.clients = addClients s.clients (acceptedBy (s.run es).2)
  | [], s => rfl
  | e :: es, s => by
    simp only [Srv.run]
    rw [run_clients es, step_clients, acceptedBy_append]
    simp [addClients, List.foldl_append]

theorem addClients_get : ∀ (l : List (Bytes × String)) (cs : Dict Bytes String) (c : Bytes),
    (addClients cs l).get? c = (lastOf l c).or (cs.get? c)
  | [], cs, c => by simp [addClients, lastOf_nil]
  | a :: l, cs, c => by
    have := addClients_get l (cs.set a.1 a.2) c
    simp only [addClients, List.foldl_cons] at this ⊢
    rw [this, lastOf_cons, Dict.get?_set, Option.or_assoc]
    split <;> simp

theorem addClients_wf : ∀ (l : List (Bytes × String)) (cs : Dict Bytes String), cs.WF → (addClients cs l).WF
  | [], _, h => h
  | a :: l, cs, h => addClients_wf l _ (Dict.wf_set h a.1 a.2)

/-! ## Closing -/

theorem countDisconnects_append (c ser) (a b : List Out) : countDisconnects c ser (a ++ b) = countDisconnects c ser a + countDisconnects c ser b := by
  simp [countDisconnects]
theorem countSends_append (c) (a b : List Out) : countSends c (a ++ b) = countSends c a + countSends c b := by
  simp [countSends]

theorem broadcast_spec (caller : Bytes) : ∀ (cs : Dict Bytes String), cs.WF →
    (∀ c st, c ≠ caller → (c, st) ∈ cs → serOf st ≠ none) →
    (broadcast caller cs).2 = .ok () ∧
    (∀ c ser, countDisconnects c ser (broadcast caller cs).1 = if c ≠ caller ∧ (cs.get? c).bind serOf = some ser then 1 else 0) ∧
    countSends caller (broadcast caller cs).1 = 0 ∧
    (∀ c, c ≠ caller → countSends c (broadcast caller cs).1 = if (cs.get? c).isSome then 1 else 0)
  | [], _, _ => by simp [broadcast, countDisconnects, countSends]
  | (c0, st0) :: cs, hwf, hser => by
    have hwf' : c0 ∉ cs.map (·.1) ∧ Dict.WF cs := by
      simpa [Dict.WF, List.nodup_cons] using hwf
    obtain ⟨ih1, ih2, ih3, ih4⟩ := broadcast_spec caller cs hwf'.2 (fun c st hc hm => hser c st hc (by simp [hm]))
    have hn : Dict.get? cs c0 = none := (Dict.get?_eq_none_iff cs c0).2 hwf'.1
    by_cases hc : c0 = caller
    · subst hc
      simp only [broadcast, if_true]
      refine ⟨ih1, ?_, ih3, ?_⟩
      · intro c ser
        rw [ih2]
        by_cases hcc : c0 = c
        · subst hcc; simp
        · simp [Dict.get?, hcc]
      · intro c hcc
        rw [ih4 c hcc]; simp [Dict.get?, Ne.symm hcc]
    · obtain ⟨ser0, hs0⟩ := Option.ne_none_iff_exists'.1 (hser c0 st0 hc (by simp))
      simp only [broadcast, hc, if_false, hs0]
      generalize broadcast caller cs = y at ih1 ih2 ih3 ih4 ⊢
      obtain ⟨o, r⟩ := y
      simp only at ih1 ih2 ih3 ih4 ⊢
      refine ⟨ih1, ?_, ?_, ?_⟩
      · intro c ser
        rw [show ∀ (x : Out) l, x :: l = [x] ++ l from fun _ _ => rfl, countDisconnects_append, ih2]
        by_cases hcc : c0 = c
        · subst hcc
          simp only [Dict.get?, if_true, hn, hs0, hc, ne_eq, not_false_eq_true, true_and, Option.bind_none, Option.bind_some,
            reduceCtorEq, if_false, countDisconnects, List.countP_singleton, isDisconnect_wire, Option.some.injEq]
          by_cases h : ser0 = ser <;> simp [h]
        · simp [Dict.get?, hcc, countDisconnects]
      · rw [show ∀ (x : Out) l, x :: l = [x] ++ l from fun _ _ => rfl, countSends_append, ih3]
        simp [countSends, hc]
      · intro c hcc
        rw [show ∀ (x : Out) l, x :: l = [x] ++ l from fun _ _ => rfl, countSends_append, ih4 c hcc]
        by_cases h0 : c0 = c
        · subst h0
          simp [Dict.get?, hn, countSends]
        · simp [Dict.get?, h0, countSends]

/-! ## After closing -/

/-- nothing a client could notice -/
def Out.silent : Out → Bool
  | .accept .. => false
  | .send .. => false
  | .invoke .. => false
  | .importing .. => false
  | _ => true

theorem step_stopped {s : Srv} (h : s.sockOpen = false) (e : Ev) :
    (s.step e).1.sockOpen = false ∧ (∀ x ∈ (s.step e).2, x.silent = true) := by
  have hf : ∀ (H : Heap) (s : Srv) c k rt r, s.sockOpen = false →
      (s.finish H c k rt false r).1.sockOpen = false ∧ ∀ x ∈ (s.finish H c k rt false r).2, x.silent = true := by
    intro H s c k rt r h
    constructor
    · obtain ⟨t, b, d, h1, h2, _⟩ := finish_state H s c k rt false r
      rw [h1]; simp [h2 rfl, h]
    · rcases finish_shape H s c k rt false r with ⟨_, h1, _⟩ | ⟨_, e, h1⟩ | ⟨_, h1 | ⟨e, h1⟩⟩
      · rw [h] at h1; simp at h1
      all_goals rw [h1]; simp [Out.silent]
  cases e with
  | ret H r =>
    simp only [Srv.step]
    split
    · exact ⟨h, by simp⟩
    · exact hf H _ _ _ _ _ h
  | mkProxy H v kw => exact ⟨h, by simp [Srv.step]⟩
  | publish H n v =>
    simp only [Srv.step]
    split <;> exact ⟨h, by simp⟩
  | recv H parts =>
    simp only [Srv.step, h, if_true]
    split
    · exact ⟨h, by simp⟩
    · exact ⟨rfl, by simp [Out.silent]⟩

theorem run_stopped : ∀ (es : List Ev) {s : Srv}, s.sockOpen = false →
    (s.run es).1.sockOpen = false ∧ (∀ x ∈ (s.run es).2, x.silent = true)
  | [], s, h => ⟨h, by simp [Srv.run]⟩
  | e :: es, s, h => by
    obtain ⟨h1, h2⟩ := step_stopped h e
    obtain ⟨h3, h4⟩ := run_stopped es h1
    refine ⟨h3, ?_⟩
    intro x hx
    simp only [Srv.run, List.mem_append] at hx
    rcases hx with hx | hx
    · exact h2 x hx
    · exact h4 x hx

theorem written_stopped {s : Srv} (h : s.sockOpen = false) {e : Ev} {w} (hw : s.written e = some w) :
    ∃ H n, e = .publish H n w.2 ∧ keyOf H n = .ok w.1 := by
  cases e with
  | recv H parts => simp [Srv.written, h] at hw
  | ret H r => simp [Srv.written] at hw
  | mkProxy H v kw => simp [Srv.written] at hw
  | publish H n v =>
    simp only [Srv.written] at hw
    split at hw
    · rename_i k hk
      simp only [Option.some.injEq] at hw; subst hw
      exact ⟨H, n, rfl, hk⟩
    · simp at hw

end Verif
