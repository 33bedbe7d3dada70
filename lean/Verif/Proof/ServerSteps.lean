import Verif.Proof.ServerNames
/-! # The kinds of steps of a server, and the replies they send -/
namespace Verif

/-- the kinds of steps -/
inductive StepCase (s : Srv) : Ev → Srv → List Out → Prop where
  | idle {e s' o} : (∀ x ∈ o, ∃ y, x = .badRead y) → s'.clients = s.clients → s'.stack = s.stack → s'.closed = s.closed →
      s'.tys = s.tys → s'.addr = s.addr → s'.sockOpen = s.sockOpen → StepCase s e s' o
  | start {H parts c m ser opts o task} : s.Serving → readOne H parts = .ok (c, m) → serOf m.serType = some ser → H.utf8 c ≠ none →
      m.payload H s ser = .ok opts →
      Srv.action H { s with clients := s.clients.set c m.serType } c m.action opts = .running { s with clients := s.clients.set c m.serType } o task →
      StepCase s (.recv H parts) { s with clients := s.clients.set c m.serType, stack := ⟨c, m.reqId, m.returnType, task⟩ :: s.stack }
        (.accept c m.reqId m.action m.serType :: o)
  | refused {H parts c m x} : s.Serving → readOne H parts = .ok (c, m) →
      (serOf m.serType = none ∨ H.utf8 c = none ∨ ∃ ser, serOf m.serType = some ser ∧ m.payload H s ser = .error x) →
      StepCase s (.recv H parts)
        (({ s with clients := s.clients.set c m.serType } : Srv).finish H c m.reqId m.returnType (decide (m.action = "close")) (.error x)).1
        (.accept c m.reqId m.action m.serType ::
          (({ s with clients := s.clients.set c m.serType } : Srv).finish H c m.reqId m.returnType (decide (m.action = "close")) (.error x)).2)
  | answered {H parts c m ser opts s1 o r} : s.Serving → readOne H parts = .ok (c, m) → serOf m.serType = some ser → H.utf8 c ≠ none →
      m.payload H s ser = .ok opts →
      Srv.action H { s with clients := s.clients.set c m.serType } c m.action opts = .finished s1 o r →
      StepCase s (.recv H parts) (s1.finish H c m.reqId m.returnType (decide (m.action = "close")) r).1
        (.accept c m.reqId m.action m.serType :: (o ++ (s1.finish H c m.reqId m.returnType (decide (m.action = "close")) r).2))
  | ended {H r0 c k rt task st} : s.stack = ⟨c, k, rt, task⟩ :: st →
      StepCase s (.ret H r0) (({ s with stack := st } : Srv).finish H c k rt false (task.result H r0)).1
        (({ s with stack := st } : Srv).finish H c k rt false (task.result H r0)).2

theorem step_cases (s : Srv) (e : Ev) : StepCase s e (s.step e).1 (s.step e).2 := by
  cases e with
  | ret H r =>
    simp only [Srv.step]
    split
    · exact .idle (by simp) rfl rfl rfl rfl rfl rfl
    · rename_i f st h
      exact .ended h
  | mkProxy H v kw => exact .idle (by simp [Srv.step]) rfl rfl rfl rfl rfl rfl
  | publish H n v =>
    simp only [Srv.step]
    split <;> exact .idle (by simp) rfl rfl rfl rfl rfl rfl
  | recv H parts =>
    simp only [Srv.step]
    split
    · exact .idle (by simp) rfl rfl rfl rfl rfl rfl
    · rename_i h1
      split
      · exact .idle (by simp) rfl rfl rfl rfl rfl rfl
      · rename_i h2
        have hs : s.Serving := by
          simp only [Bool.or_eq_true, not_or, Bool.not_eq_true] at h1
          exact ⟨h1.1, h1.2, by simpa using h2⟩
        split
        · exact .idle (by simp) rfl rfl rfl rfl rfl rfl
        · rename_i c m hr
          simp only
          rcases process_split H s c m with ⟨x, h, h5⟩ | ⟨ser, cs, opts, h5, h6, h7, ⟨s1, o, r, h8, h9⟩ | ⟨s1, o, task, h8, h9⟩⟩
          · rw [h]; exact .refused hs hr h5
          · rw [h9]; exact .answered hs hr h5 (by simp [h6]) h7 h8
          · rw [h9]
            have h10 := action_state H { s with clients := s.clients.set c m.serType } c m.action opts
            rw [h8] at h10
            obtain ⟨rfl, _, _⟩ := h10
            exact .start hs hr h5 (by simp [h6]) h7 h8

/-- what a reply is made of -/
def ReplyOf (H : Heap) (c : Bytes) (s : Srv) (rt : String) (r : Except Exc Val) (k : Int) (ser : Ser) (w : Wire) (t : Refs) : Prop :=
  (∃ v, r = .ok v ∧ ser.dumps (s.sendEnv H) (s.convert H rt v).1.refs (replyDict k (s.convert H rt v).2 .none) = (t, .ok w)) ∨
  (∃ x t1, H.utf8 c ≠ none ∧ ser.dumps (s.sendEnv H) t1 (replyDict k .none (.tuple [.str x.name, .list ((H.transcript c k).map .str)])) = (t, .ok w) ∧
    ((r = .error x ∧ t1 = s.refs) ∨
     ∃ v, r = .ok v ∧ ser.dumps (s.sendEnv H) (s.convert H rt v).1.refs (replyDict k (s.convert H rt v).2 .none) = (t1, .error x)))

theorem sendResult_cases (H : Heap) (s : Srv) (c k v e b) :
    (∃ ser t w, (s.clients.get? c).bind serOf = some ser ∧ H.utf8 c ≠ none ∧ s.sockOpen = true ∧
      ser.dumps (s.sendEnv H) s.refs (replyDict k v e) = (t, .ok w) ∧ s.sendResult H c k v e b = ({ s with refs := t }, .ok [.send c ser w])) ∨
    (∃ x, (s.sendResult H c k v e b).2 = .error x ∧
      (H.utf8 c = none ∨ (s.clients.get? c).bind serOf = none ∨ s.sockOpen = false ∨ b = true ∨
        ∃ ser t, (s.clients.get? c).bind serOf = some ser ∧ ser.dumps (s.sendEnv H) s.refs (replyDict k v e) = (t, .error x) ∧
          (s.sendResult H c k v e b).1 = { s with refs := t })) := by
  unfold Srv.sendResult
  split
  · rename_i h; exact .inr ⟨_, rfl, .inl h⟩
  · rename_i h1
    split
    · rename_i h; exact .inr ⟨_, rfl, .inr (.inl h)⟩
    · rename_i ser h2
      split
      · rename_i h; exact .inr ⟨_, rfl, .inr (.inr (.inr (.inl h.1)))⟩
      · split
        · rename_i t x hd; exact .inr ⟨_, rfl, .inr (.inr (.inr (.inr ⟨ser, t, h2, hd, rfl⟩)))⟩
        · rename_i t w hd
          split
          · rename_i hso; exact .inl ⟨ser, t, w, h2, by simp [h1], hso, hd, rfl⟩
          · rename_i hso; exact .inr ⟨_, rfl, .inr (.inr (.inl (by simpa using hso)))⟩

theorem sendError_sends {H : Heap} {s : Srv} {c k x s' o} (h : s.sendError H c k x = (s', .ok o)) :
    ∃ ser w, (s.clients.get? c).bind serOf = some ser ∧ H.utf8 c ≠ none ∧ s.sockOpen = true ∧ o = [.send c ser w] ∧
      s' = { s with refs := s'.refs } ∧
      ser.dumps (s.sendEnv H) s.refs (replyDict k .none (.tuple [.str x.name, .list ((H.transcript c k).map .str)])) = (s'.refs, .ok w) := by
  unfold Srv.sendError at h
  split at h
  · simp at h
  · rcases sendResult_cases H s c k .none (.tuple [.str x.name, .list ((H.transcript c k).map .str)]) H.tbBad with ⟨ser, t, w, h1, h2, h3, h4, h5⟩ | ⟨y, h1, _⟩
    · rw [h5] at h
      simp only [Prod.mk.injEq, Except.ok.injEq] at h
      obtain ⟨rfl, rfl⟩ := h
      exact ⟨ser, w, h1, h2, h3, rfl, rfl, h4⟩
    · rw [h] at h1; simp at h1

/-- every message `finish` sends is a reply to the request, made of its result -/
theorem finish_sends {H : Heap} {s : Srv} {c k rt cl r c' ser w} (h : .send c' ser w ∈ (s.finish H c k rt cl r).2) :
    c' = c ∧ 0 ≤ k ∧ (s.clients.get? c).bind serOf = some ser ∧ H.utf8 c ≠ none ∧ s.sockOpen = true ∧
      ReplyOf H c s rt r k ser w (s.finish H c k rt cl r).1.refs ∧ (s.finish H c k rt cl r).2 = [.send c ser w, .done c k none] := by
  unfold Srv.finish at h ⊢
  unfold Srv.respond at h ⊢
  by_cases hk : 0 ≤ k
  · rw [if_pos hk] at h ⊢
    cases r with
    | error x =>
      simp only at h ⊢
      generalize hg : s.sendError H c k x = y at h ⊢
      obtain ⟨s', o⟩ := y
      cases o with
      | error e => simp at h
      | ok o =>
        obtain ⟨ser', w', h1, h2, h3, h4, h5, h6⟩ := sendError_sends hg
        subst h4
        simp only [List.mem_append, List.mem_singleton, Out.send.injEq, reduceCtorEq, or_false] at h
        obtain ⟨rfl, rfl, rfl⟩ := h
        refine ⟨rfl, hk, h1, h2, h3, .inr ⟨x, s.refs, h2, ?_, .inl ⟨rfl, rfl⟩⟩, rfl⟩
        rw [h6]
        congr 1
        simp only; split <;> rfl
    | ok v =>
      simp only at h ⊢
      obtain ⟨t0, hconv⟩ := convert_state H s rt v
      generalize hcv : s.convert H rt v = cv at h hconv ⊢
      obtain ⟨s1, x⟩ := cv
      simp only at h hconv ⊢
      subst hconv
      rcases sendResult_cases H { s with refs := t0 } c k x .none false with ⟨ser', t, w', h1, h2, h3, h4, h5⟩ | ⟨y, h1, h2⟩
      · rw [h5] at h ⊢
        simp only [List.mem_append, List.mem_singleton, Out.send.injEq, reduceCtorEq, or_false] at h
        obtain ⟨rfl, rfl, rfl⟩ := h
        refine ⟨rfl, hk, h1, h2, h3, .inl ⟨v, rfl, ?_⟩, rfl⟩
        rw [hcv]
        rw [show s.sendEnv H = ({ s with refs := t0 } : Srv).sendEnv H from rfl]
        simp only at h4 ⊢
        rw [h4]
        congr 1
        split <;> rfl
      · generalize hsr : ({ s with refs := t0 } : Srv).sendResult H c k x .none false = z at h h1 h2 ⊢
        obtain ⟨s2, e2⟩ := z
        simp only at h1 h2; subst h1
        simp only at h ⊢
        generalize hg : s2.sendError H c k y = z at h ⊢
        obtain ⟨s', o⟩ := z
        cases o with
        | error e => simp at h
        | ok o =>
          obtain ⟨ser', w', h3, h4, h5, h6, h7, h8⟩ := sendError_sends hg
          subst h6
          simp only [List.mem_append, List.mem_singleton, Out.send.injEq, reduceCtorEq, or_false] at h
          obtain ⟨rfl, rfl, rfl⟩ := h
          obtain ⟨t2, hs2⟩ := sendResult_state H { s with refs := t0 } c' k x .none false
          rw [hsr] at hs2
          simp only at hs2; subst hs2
          refine ⟨rfl, hk, h3, h4, h5, .inr ⟨y, t2, h4, ?_, .inr ⟨v, rfl, ?_⟩⟩, rfl⟩
          · rw [show s.sendEnv H = ({ s with refs := t2 } : Srv).sendEnv H from rfl]
            simp only at h8 ⊢
            rw [h8]
            congr 1
            split <;> rfl
          · rcases h2 with h2 | h2 | h2 | h2 | ⟨ser2, t3, h2, h9, h10⟩
            · exact absurd h2 h4
            · simp only at h2 h3; rw [h2] at h3; simp at h3
            · simp only at h2 h5; rw [h2] at h5; simp at h5
            · simp at h2
            · simp only at h2 h3 h10
              rw [h3] at h2; simp only [Option.some.injEq] at h2; subst h2
              have : t2 = t3 := by simpa using h10
              subst this
              rw [hcv]; exact h9
  · rw [if_neg hk] at h
    cases r with
    | ok v => simp at h
    | error x => simp at h

theorem finish_closed (H : Heap) (s : Srv) (c k rt cl r) : (s.finish H c k rt cl r).1.closed = s.closed := by
  obtain ⟨t, b, d, h, _⟩ := finish_state H s c k rt cl r
  rw [h]

/-- a message sent in a step is a disconnect message or the reply to the request completed in the step -/
theorem step_sends {s : Srv} {e : Ev} {c ser w} (hwf : s.clients.WF) (h : .send c ser w ∈ (s.step e).2) :
    ((s.step e).1.clients.get? c).bind serOf = some ser ∧
    ((w = disconnectWire ∧ (s.step e).1.closed = true ∧ s.closed = false) ∨
     ∃ k rt r s1, 0 ≤ k ∧ Completes s e c k rt r s1 ∧ ReplyOf e.heap c s1 rt r k ser w (s.step e).1.refs) := by
  have hc := step_cases s e
  generalize (s.step e).1 = s' at *
  generalize (s.step e).2 = os at *
  cases hc with
  | idle ho _ _ _ _ _ _ => obtain ⟨y, hy⟩ := ho _ h; simp at hy
  | @start H parts c' m ser' opts o task _ _ _ _ _ ha =>
    exfalso
    have := action_state H { s with clients := s.clients.set c' m.serType } c' m.action opts
    rw [ha] at this
    simp only [List.mem_cons, reduceCtorEq, false_or] at h
    revert ha
    unfold Srv.action
    repeat' split
    all_goals first
      | (intro h'; simp at h')
      | skip
    all_goals (obtain ⟨rfl, _⟩ := h'; simp at h)
  | @refused H parts c' m x hs hr hx =>
    simp only [List.mem_cons, reduceCtorEq, false_or] at h
    obtain ⟨rfl, h1, h2, h3, h4, h5, h6⟩ := finish_sends h
    refine ⟨?_, .inr ⟨m.reqId, m.returnType, .error x, _, h1, .inr ⟨H, parts, m, x, ser, rfl, hs, hr, rfl, rfl, ?_, ?_, rfl, rfl⟩, h5⟩⟩
    · rw [finish_clients]; exact h2
    · simpa using h2
    · simp only [Dict.get?_set, if_true, Option.bind_some] at h2
      rcases hx with hx | hx | ⟨ser', hx, hx2⟩
      · rw [hx] at h2; simp at h2
      · exact absurd hx h3
      · rw [hx] at h2; simp only [Option.some.injEq] at h2; subst h2; exact hx2
  | @answered H parts c' m ser' opts s1 o r hs hr hser hu hp ha =>
    simp only [List.mem_cons, reduceCtorEq, false_or, List.mem_append] at h
    have hst := action_state H { s with clients := s.clients.set c' m.serType } c' m.action opts
    rw [ha] at hst
    obtain ⟨⟨t, n, b1, b2, h9, h10, h11⟩, h12⟩ := hst
    rcases h with h | h
    · have hcl : m.action = "close" := by
        apply Classical.byContradiction
        intro hn
        rw [(h10 hn).2.2] at h; simp at h
      have hw := h12 _ h
      simp only [Out.neutral] at hw
      refine ⟨?_, .inl ⟨hw, ?_, hs.1⟩⟩
      · rw [finish_clients, h9]
        rw [hcl] at ha
        simp only [Srv.action, Srv.closeAction] at ha
        have hb : ∀ (cs : List (Bytes × String)) x, x ∈ (broadcast c' cs).1 → x = .send c ser w → ∃ st, (c, st) ∈ cs ∧ serOf st = some ser := by
          intro cs
          induction cs with
          | nil => simp [broadcast]
          | cons a cs ih =>
            obtain ⟨a1, a2⟩ := a
            intro x hx hxe
            simp only [broadcast] at hx
            split at hx
            · obtain ⟨st, h1, h2⟩ := ih x hx hxe; exact ⟨st, List.mem_cons_of_mem _ h1, h2⟩
            · split at hx
              · simp at hx
              · rename_i ser2 hs2
                simp only [List.mem_cons] at hx
                rcases hx with rfl | hx
                · simp only [Out.send.injEq] at hxe
                  obtain ⟨rfl, rfl, _⟩ := hxe
                  exact ⟨a2, by simp, hs2⟩
                · obtain ⟨st, h1, h2⟩ := ih x hx hxe; exact ⟨st, List.mem_cons_of_mem _ h1, h2⟩
        have ho : o = (broadcast c' (s.clients.set c' m.serType)).1 := by
          revert ha
          generalize broadcast c' (s.clients.set c' m.serType) = y
          obtain ⟨y1, y2⟩ := y
          cases y2 with
          | error x => simp only; rintro ⟨⟩; rfl
          | ok u => simp only; split <;> (rintro ⟨⟩; rfl)
        subst ho
        obtain ⟨st, h1, h2⟩ := hb _ _ h rfl
        simp only
        rw [Dict.get?_of_mem (Dict.wf_set hwf _ _) h1]; exact h2
      · rw [finish_closed, h9]; exact h11 hcl
    · obtain ⟨rfl, h1, h2, h3, h4, h5, h6⟩ := finish_sends h
      exact ⟨by rw [finish_clients]; exact h2, .inr ⟨m.reqId, m.returnType, r, s1, h1,
        .inl ⟨o, m.action, m.serType, m.opts, ser', opts, hr, hs, hser, hu, hp, ha⟩, h5⟩⟩
  | @ended H r0 c' k rt task st hst =>
    obtain ⟨rfl, h1, h2, h3, h4, h5, h6⟩ := finish_sends h
    exact ⟨by rw [finish_clients]; exact h2, .inr ⟨k, rt, _, _, h1, .inl ⟨[], task, st, hst, rfl, rfl, rfl⟩, h5⟩⟩

end Verif
