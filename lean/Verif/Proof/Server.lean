import Verif.Spec.Server
import Verif.Spec.Transport
import Verif.Proof.JsonTotal
/-! # Lemmas about the server machine -/
namespace Verif

theorem proto_append (L : Lib) : ∀ (a b : List Out) (st : List OpenReq),
    proto L st (a ++ b) = (proto L st a).bind (fun st' => proto L st' b)
  | [], b, st => by simp [proto]
  | o :: a, b, st => by
    simp only [List.cons_append, proto]
    cases protoStep L st o with
    | none => simp
    | some st' => simp only; exact proto_append L a b st'

/-- what packing an int gives -/
theorem pack_int_loads {E : SendEnv} (hL : E.lib.Laws) (hty : Ty.int ∈ E.tys) {n t i t' w}
    (h : pack E n t (.int i) = (t', .ok w)) : unpack ⟨E.lib, none⟩ w = .ok (.int i) := by
  cases n with
  | zero => simp [pack] at h
  | succ n =>
    simp only [pack] at h
    split at h
    · simp only [Prod.mk.injEq, Except.ok.injEq] at h
      rw [← h.2]; rfl
    · have hi : (Val.int i).isinstance E.tys = true := by simp [Val.isinstance, Val.types, hty]
      simp only [encode, hi, if_true, encodeValue, Val.core] at h
      cases hp : E.lib.pickleDumps (.int i) with
      | error e => simp [hp] at h
      | ok b =>
        simp only [hp] at h
        cases n with
        | zero => simp [mapS, pairS, pack] at h
        | succ n =>
          simp only [mapS, pairS, pack, Prod.mk.injEq, Except.ok.injEq] at h
          rw [← h.2]
          simp only [unpack, unpackM, keyOk, not_true_eq_false, if_false]
          simp only [dictOf, List.foldl, itemSet, keyEq, encodeKey, decode, lookupStr, if_true]
          simp [removeStr, Val.text?, Val.core, need, lookupStr, hL.pickle _ _ hp]

theorem mapField_pack {E : SendEnv} {n t d t' m} (h : mapS (pairS (pack E n)) t d = (t', .ok m)) {s : String} {v : Val}
    {r : List (Val × Val)} (hd : d = (.str s, v) :: r) :
    ∃ t1 t2 w m', m = (.str s, w) :: m' ∧ pack E n t1 v = (t2, .ok w) ∧ mapS (pairS (pack E n)) t2 r = (t', .ok m') := by
  subst hd
  simp only [mapS, pairS] at h
  have hk : ∀ t, pack E n t (.str s) = (t, .ok (.str s)) ∨ pack E n t (.str s) = (t, .error .valueError) := by
    intro t; cases n <;> simp [pack]
  rcases hk t with hk | hk <;> rw [hk] at h
  · simp only at h
    cases hv : pack E n t v with
    | mk t2 rv =>
      cases rv with
      | error e => rw [hv] at h; simp at h
      | ok w =>
        rw [hv] at h; simp only at h
        cases hr : mapS (pairS (pack E n)) t2 r with
        | mk t3 rr =>
          cases rr with
          | error e => rw [hr] at h; simp at h
          | ok m' =>
            rw [hr] at h
            simp only [Prod.mk.injEq, Except.ok.injEq] at h
            obtain ⟨rfl, rfl⟩ := h
            exact ⟨t, t2, w, m', rfl, hv, hr⟩
  · simp at h

theorem jmapField_pack {E : SendEnv} {n t d t' m} (h : mapS (jpair E.lib (jpack E n)) t d = (t', .ok m)) {s : String} {v : Val}
    {r : List (Val × Val)} (hd : d = (.str s, v) :: r) :
    ∃ t1 t2 w m', m = (.str s, w) :: m' ∧ jpack E n t1 v = (t2, .ok w) ∧ mapS (jpair E.lib (jpack E n)) t2 r = (t', .ok m') := by
  subst hd
  simp only [mapS, jpair, jkey, Val.core] at h
  cases hv : jpack E n t v with
  | mk t2 rv =>
    cases rv with
    | error e => rw [hv] at h; simp at h
    | ok w =>
      rw [hv] at h; simp only at h
      cases hr : mapS (jpair E.lib (jpack E n)) t2 r with
      | mk t3 rr =>
        cases rr with
        | error e => rw [hr] at h; simp at h
        | ok m' =>
          rw [hr] at h
          simp only [Prod.mk.injEq, Except.ok.injEq] at h
          obtain ⟨rfl, rfl⟩ := h
          exact ⟨t, t2, w, m', rfl, hv, hr⟩

/-- a serialized reply carries its request id -/
theorem dumps_replyId {E : SendEnv} (hL : E.lib.Laws) (hty : Ty.int ∈ E.tys) {ser : Ser} {t k v e t' w}
    (h : ser.dumps E t (replyDict k v e) = (t', .ok w)) : replyId E.lib ser w = some k := by
  cases ser with
  | msgpack =>
    simp only [Ser.dumps, msgpackDumps, replyDict] at h
    obtain ⟨n, hn⟩ : ∃ n, msgpackDepth = n + 1 := ⟨511, rfl⟩
    rw [hn] at h
    simp only [pack] at h
    split at h
    · rename_i t1 m hm
      simp only [Prod.mk.injEq, Except.ok.injEq] at h
      obtain ⟨rfl, rfl⟩ := h
      obtain ⟨ta, tb, w1, m1, rfl, h1, h2⟩ := mapField_pack hm rfl
      obtain ⟨tc, td, w2, m2, rfl, h3, h4⟩ := mapField_pack h2 rfl
      have hw1 : w1 = .str "return" := by
        cases n with
        | zero => simp [pack] at h1
        | succ n => simp only [pack, Prod.mk.injEq, Except.ok.injEq] at h1; exact h1.2.symm
      subst hw1
      have := pack_int_loads hL hty h3
      simp [replyId, wireField, mapField, Ser.loads, msgpackLoads, this]
    · simp at h
  | json =>
    simp only [Ser.dumps, jsonDumps, replyDict] at h
    obtain ⟨n, hn⟩ : ∃ n, jsonDepth = n + 1 := ⟨999, rfl⟩
    rw [hn] at h
    simp only [jpack, Val.core] at h
    split at h
    · rename_i t1 m hm
      simp only [Prod.mk.injEq, Except.ok.injEq] at h
      obtain ⟨rfl, rfl⟩ := h
      obtain ⟨ta, tb, w1, m1, rfl, h1, h2⟩ := jmapField_pack hm rfl
      obtain ⟨tc, td, w2, m2, rfl, h3, h4⟩ := jmapField_pack h2 rfl
      cases n with
      | zero => simp [jpack] at h1
      | succ n =>
        simp only [jpack, Val.core, Prod.mk.injEq, Except.ok.injEq] at h1 h3
        rw [← h1.2, ← h3.2]
        simp [replyId, wireField, mapField, Ser.loads, jsonLoads, junpack]
    · simp at h

theorem replyId_disconnect (L : Lib) (ser : Ser) : replyId L ser disconnectWire = none := rfl
theorem isDisconnect_wire : isDisconnect disconnectWire = true := rfl

/-! ## What each function changes -/

theorem sendResult_state (H : Heap) (s : Srv) (c k v e b) : ∃ t, (s.sendResult H c k v e b).1 = { s with refs := t } := by
  unfold Srv.sendResult
  split
  · exact ⟨s.refs, rfl⟩
  · split
    · exact ⟨s.refs, rfl⟩
    · split
      · exact ⟨s.refs, rfl⟩
      · split
        · exact ⟨_, rfl⟩
        · split
          · exact ⟨_, rfl⟩
          · exact ⟨_, rfl⟩

theorem sendError_state (H : Heap) (s : Srv) (c k e) : ∃ t, (s.sendError H c k e).1 = { s with refs := t } := by
  unfold Srv.sendError
  split
  · exact ⟨s.refs, rfl⟩
  · exact sendResult_state ..

theorem proxyTo_state (H : Heap) (s : Srv) (v) : ∃ t, (s.proxyTo H v).1 = { s with refs := t } := by
  unfold Srv.proxyTo
  split <;> exact ⟨_, rfl⟩

theorem convert_state (H : Heap) (s : Srv) (rt v) : ∃ t, (s.convert H rt v).1 = { s with refs := t } := by
  unfold Srv.convert
  split
  · split
    · exact ⟨s.refs, rfl⟩
    · exact proxyTo_state ..
  · split
    · exact proxyTo_state ..
    · exact ⟨s.refs, rfl⟩

theorem respond_state (H : Heap) (s : Srv) (c k rt r) : ∃ t, (s.respond H c k rt r).1 = { s with refs := t } := by
  unfold Srv.respond
  split
  · cases r with
    | ok v =>
      simp only
      obtain ⟨t1, h1⟩ := convert_state H s rt v
      generalize s.convert H rt v = cv at h1 ⊢
      obtain ⟨s1, v1⟩ := cv
      simp only at h1; subst h1
      simp only
      obtain ⟨t2, h2⟩ := sendResult_state H { s with refs := t1 } c k v1 .none false
      generalize Srv.sendResult H { s with refs := t1 } c k v1 .none = sr at h2 ⊢
      obtain ⟨s2, r2⟩ := sr
      simp only at h2; subst h2
      cases r2 with
      | ok o => exact ⟨t2, rfl⟩
      | error e =>
        simp only
        obtain ⟨t3, h3⟩ := sendError_state H { s with refs := t2 } c k e
        generalize Srv.sendError H { s with refs := t2 } c k e = sr at h3 ⊢
        obtain ⟨s3, r3⟩ := sr
        simp only at h3; subst h3
        cases r3 <;> exact ⟨t3, rfl⟩
    | error e =>
      simp only
      obtain ⟨t3, h3⟩ := sendError_state H s c k e
      generalize Srv.sendError H s c k e = sr at h3 ⊢
      obtain ⟨s3, r3⟩ := sr
      simp only at h3; subst h3
      cases r3 <;> exact ⟨t3, rfl⟩
  · cases r <;> exact ⟨s.refs, rfl⟩

theorem finish_state (H : Heap) (s : Srv) (c k rt cl r) :
    ∃ t b d, (s.finish H c k rt cl r).1 = { s with refs := t, sockOpen := b, dead := d } ∧
      (cl = false → b = s.sockOpen) ∧ (b = true → s.sockOpen = true) := by
  unfold Srv.finish
  obtain ⟨t, h⟩ := respond_state H s c k rt r
  generalize s.respond H c k rt r = x at h ⊢
  obtain ⟨s1, o, e⟩ := x
  simp only at h; subst h
  cases e with
  | none =>
    cases cl with
    | true => exact ⟨t, false, s.dead, rfl, by simp, by simp⟩
    | false => exact ⟨t, s.sockOpen, s.dead, rfl, by simp, by simp⟩
  | some e => exact ⟨t, s.sockOpen, _, rfl, by simp, by simp⟩

theorem deleteAction_state (H : Heap) (s : Srv) (o) : ∃ t, (s.deleteAction H o).1 = { s with refs := t } := by
  unfold Srv.deleteAction
  split
  · exact ⟨s.refs, rfl⟩
  · exact ⟨s.refs, rfl⟩
  · split
    · exact ⟨s.refs, rfl⟩
    · split
      · exact ⟨s.refs, rfl⟩
      · exact ⟨s.refs, rfl⟩
      · split <;> exact ⟨_, rfl⟩

/-! ## Which outputs are produced -/

theorem sendResult_outs {H : Heap} {s : Srv} {c k v e b s' o} (hL : H.lib.Laws) (hty : Ty.int ∈ s.tys)
    (h : s.sendResult H c k v e b = (s', .ok o)) :
    ∃ ser w, o = [.send c ser w] ∧ replyId H.lib ser w = some k ∧
      (s.clients.get? c).bind serOf = some ser ∧ s.sockOpen = true := by
  unfold Srv.sendResult at h
  split at h
  · simp at h
  · split at h
    · simp at h
    · rename_i ser hser
      split at h
      · simp at h
      · split at h
        · simp at h
        · rename_i t w hd
          split at h
          · rename_i ho
            simp only [Prod.mk.injEq, Except.ok.injEq] at h
            exact ⟨ser, w, h.2.symm, dumps_replyId (E := s.sendEnv H) hL hty hd, hser, ho⟩
          · simp at h

theorem sendError_outs {H : Heap} {s : Srv} {c k e s' o} (hL : H.lib.Laws) (hty : Ty.int ∈ s.tys)
    (h : s.sendError H c k e = (s', .ok o)) :
    ∃ ser w, o = [.send c ser w] ∧ replyId H.lib ser w = some k ∧
      (s.clients.get? c).bind serOf = some ser ∧ s.sockOpen = true := by
  unfold Srv.sendError at h
  split at h
  · simp at h
  · exact sendResult_outs hL hty h

theorem respond_outs {H : Heap} {s : Srv} {c k rt r s' o x} (hL : H.lib.Laws) (hty : Ty.int ∈ s.tys)
    (h : s.respond H c k rt r = (s', o, x)) :
    (∃ e, x = some e ∧ o = []) ∨
    (x = none ∧ 0 ≤ k ∧ ∃ ser w, o = [.send c ser w] ∧ replyId H.lib ser w = some k ∧
      (s.clients.get? c).bind serOf = some ser ∧ s.sockOpen = true) ∨
    (x = none ∧ k < 0 ∧ (o = [] ∨ ∃ e, o = [.hook e])) := by
  unfold Srv.respond at h
  split at h
  · rename_i hk
    cases r with
    | ok v =>
      simp only at h
      obtain ⟨t1, h1⟩ := convert_state H s rt v
      generalize s.convert H rt v = cv at h1 h
      obtain ⟨s1, v1⟩ := cv
      simp only at h1; subst h1
      simp only at h
      obtain ⟨t2, h2⟩ := sendResult_state H { s with refs := t1 } c k v1 .none false
      have h2o := @sendResult_outs H { s with refs := t1 } c k v1 .none false
      generalize Srv.sendResult H { s with refs := t1 } c k v1 .none = sr at h2 h h2o
      obtain ⟨s2, r2⟩ := sr
      simp only at h2; subst h2
      cases r2 with
      | ok o2 =>
        simp only [Prod.mk.injEq] at h
        obtain ⟨rfl, rfl, rfl⟩ := h
        exact Or.inr (Or.inl ⟨rfl, hk, h2o hL hty rfl⟩)
      | error e =>
        simp only at h
        have h3o := @sendError_outs H { s with refs := t2 } c k e
        generalize Srv.sendError H { s with refs := t2 } c k e = sr at h h3o
        obtain ⟨s3, r3⟩ := sr
        cases r3 with
        | ok o3 =>
          simp only [Prod.mk.injEq] at h
          obtain ⟨rfl, rfl, rfl⟩ := h
          exact Or.inr (Or.inl ⟨rfl, hk, h3o hL hty rfl⟩)
        | error e =>
          simp only [Prod.mk.injEq] at h
          obtain ⟨rfl, rfl, rfl⟩ := h
          exact Or.inl ⟨_, rfl, rfl⟩
    | error e =>
      simp only at h
      have h3o := @sendError_outs H s c k e
      generalize Srv.sendError H s c k e = sr at h h3o
      obtain ⟨s3, r3⟩ := sr
      cases r3 with
      | ok o3 =>
        simp only [Prod.mk.injEq] at h
        obtain ⟨rfl, rfl, rfl⟩ := h
        exact Or.inr (Or.inl ⟨rfl, hk, h3o hL hty rfl⟩)
      | error e =>
        simp only [Prod.mk.injEq] at h
        obtain ⟨rfl, rfl, rfl⟩ := h
        exact Or.inl ⟨_, rfl, rfl⟩
  · rename_i hk
    cases r with
    | ok v =>
      simp only [Prod.mk.injEq] at h
      exact Or.inr (Or.inr ⟨h.2.2.symm, by omega, Or.inl h.2.1.symm⟩)
    | error e =>
      simp only [Prod.mk.injEq] at h
      exact Or.inr (Or.inr ⟨h.2.2.symm, by omega, Or.inr ⟨e, h.2.1.symm⟩⟩)

/-- the three ways processing of a request can end -/
theorem finish_outs {H : Heap} {s : Srv} (c k rt cl r) (hL : H.lib.Laws) (hty : Ty.int ∈ s.tys) :
    (∃ e, (s.finish H c k rt cl r).2 = [.done c k (some e)]) ∨
    (0 ≤ k ∧ ∃ ser w, (s.finish H c k rt cl r).2 = [.send c ser w, .done c k none] ∧ replyId H.lib ser w = some k ∧
      (s.clients.get? c).bind serOf = some ser ∧ s.sockOpen = true) ∨
    (k < 0 ∧ ((s.finish H c k rt cl r).2 = [.done c k none] ∨
      ∃ e, (s.finish H c k rt cl r).2 = [.hook e, .done c k none])) := by
  unfold Srv.finish
  have h := @respond_outs H s c k rt r
  generalize s.respond H c k rt r = x at h ⊢
  obtain ⟨s1, o, x⟩ := x
  rcases h hL hty rfl with ⟨e, rfl, rfl⟩ | ⟨rfl, hk, ser, w, rfl, h1⟩ | ⟨rfl, hk, rfl | ⟨e, rfl⟩⟩
  · exact Or.inl ⟨e, rfl⟩
  · exact Or.inr (Or.inl ⟨hk, ser, w, rfl, h1⟩)
  · exact Or.inr (Or.inr ⟨hk, Or.inl rfl⟩)
  · exact Or.inr (Or.inr ⟨hk, Or.inr ⟨e, rfl⟩⟩)

theorem finish_proto {H : Heap} {s : Srv} (c k rt cl r) (hL : H.lib.Laws) (hty : Ty.int ∈ s.tys) (st : List OpenReq) :
    proto H.lib (⟨c, k, false⟩ :: st) (s.finish H c k rt cl r).2 = some st := by
  rcases finish_outs (H := H) (s := s) c k rt cl r hL hty with ⟨e, h⟩ | ⟨hk, ser, w, h, h1, _⟩ | ⟨hk, h | ⟨e, h⟩⟩ <;> rw [h]
  · simp [proto, protoStep]
  · simp [proto, protoStep, h1, hk]
  · have : ¬ (0 ≤ k) := by omega
    simp [proto, protoStep, this]
  · have : ¬ (0 ≤ k) := by omega
    simp [proto, protoStep, this]

theorem broadcast_outs (caller : Bytes) : ∀ (cs : List (Bytes × String)) (o : Out), o ∈ (broadcast caller cs).1 →
    ∃ c ser, o = .send c ser disconnectWire
  | [], o, h => by simp [broadcast] at h
  | (c, st) :: r, o, h => by
    simp only [broadcast] at h
    split at h
    · exact broadcast_outs caller r o h
    · split at h
      · simp at h
      · rename_i ser _
        simp only [List.mem_cons] at h
        rcases h with h | h
        · exact ⟨c, ser, h⟩
        · exact broadcast_outs caller r o h

theorem proto_neutral {L : Lib} : ∀ (os : List Out) (st : List OpenReq), (∀ o ∈ os, protoStep L st o = some st) →
    proto L st os = some st
  | [], st, _ => rfl
  | o :: os, st, h => by
    simp only [proto, h o (by simp)]
    exact proto_neutral os st (fun o ho => h o (by simp [ho]))

/-- outputs that are neither requests starting or ending nor replies -/
def Out.neutral : Out → Prop
  | .send _ _ w => w = disconnectWire
  | .invoke .. => True
  | .importing .. => True
  | .hook _ => True
  | _ => False

theorem neutral_protoStep {L : Lib} {o : Out} (h : o.neutral) (st : List OpenReq) : protoStep L st o = some st := by
  cases o <;> simp only [Out.neutral] at h <;> try rfl
  subst h
  rfl

theorem closeAction_state (s : Srv) (c) : ∃ b, (s.closeAction c).1 = { s with closed := true, registered := b } ∧
    ∀ o ∈ (s.closeAction c).2.1, ∃ c ser, o = .send c ser disconnectWire := by
  have h := broadcast_outs c s.clients
  unfold Srv.closeAction
  simp only
  generalize broadcast c s.clients = b at h ⊢
  obtain ⟨o, r⟩ := b
  cases r with
  | error e => exact ⟨s.registered, rfl, h⟩
  | ok u =>
    simp only
    split
    · exact ⟨false, rfl, h⟩
    · exact ⟨s.registered, rfl, h⟩

/-- what `process_action` may do to the state -/
def StartedOk (s : Srv) (a : String) : Started → Prop
  | .finished s' o _ => (∃ t n b1 b2, s' = { s with refs := t, ns := n, closed := b1, registered := b2 } ∧
        (a ≠ "close" → b1 = s.closed ∧ b2 = s.registered ∧ o = []) ∧ (a = "close" → b1 = true)) ∧ ∀ x ∈ o, x.neutral
  | .running s' o _ => s' = s ∧ (∀ x ∈ o, x.neutral) ∧ a ≠ "close"

theorem action_state (H : Heap) (s : Srv) (c a opts) : StartedOk s a (s.action H c a opts) := by
  unfold Srv.action
  split
  · split
    · exact ⟨⟨_, _, _, _, rfl, by simp, by simp⟩, by simp⟩
    · split <;> simp [StartedOk, Out.neutral]
  · exact ⟨⟨_, _, _, _, rfl, by simp, by simp⟩, by simp⟩
  · obtain ⟨t, h⟩ := deleteAction_state H s opts
    generalize s.deleteAction H opts = x at h ⊢
    obtain ⟨s1, r⟩ := x
    simp only at h; subst h
    exact ⟨⟨_, _, _, _, rfl, by simp, by simp⟩, by simp⟩
  · exact ⟨⟨_, _, _, _, rfl, by simp, by simp⟩, by simp⟩
  · split
    · exact ⟨⟨_, _, _, _, rfl, by simp, by simp⟩, by simp⟩
    · exact ⟨⟨_, _, _, _, rfl, by simp, by simp⟩, by simp⟩
  · split
    · exact ⟨⟨_, _, _, _, rfl, by simp, by simp⟩, by simp⟩
    · split
      · simp [StartedOk, Out.neutral]
      · exact ⟨⟨_, _, _, _, rfl, by simp, by simp⟩, by simp⟩
  · exact ⟨⟨_, _, _, _, rfl, by simp, by simp⟩, by simp⟩
  · obtain ⟨b, h, ho⟩ := closeAction_state s c
    generalize s.closeAction c = x at h ho ⊢
    obtain ⟨s1, o, r⟩ := x
    simp only at h; subst h
    refine ⟨⟨_, _, _, _, rfl, by simp, by simp⟩, ?_⟩
    intro x hx
    obtain ⟨c', ser, rfl⟩ := ho x hx
    rfl
  · rename_i h
    exact ⟨⟨_, _, _, _, rfl, by simp, fun hc => absurd hc (by assumption)⟩, by simp⟩

/-- the shapes of `_process_one` -/
theorem process_cases (H : Heap) (s : Srv) (c : Bytes) (m : Msg) :
    (∃ s1 o r t n b1 b2, s.process H c m =
        ((s1.finish H c m.reqId m.returnType (decide (m.action = "close")) r).1,
          o ++ (s1.finish H c m.reqId m.returnType (decide (m.action = "close")) r).2) ∧
      s1 = { s with clients := s.clients.set c m.serType, refs := t, ns := n, closed := b1, registered := b2 } ∧
      (m.action ≠ "close" → b1 = s.closed ∧ b2 = s.registered ∧ o = []) ∧ ∀ x ∈ o, x.neutral) ∨
    (∃ o task, s.process H c m =
        ({ s with clients := s.clients.set c m.serType, stack := ⟨c, m.reqId, m.returnType, task⟩ :: s.stack }, o) ∧
      (∀ x ∈ o, x.neutral) ∧ m.action ≠ "close" ∧ (serOf m.serType).isSome ∧ (H.utf8 c).isSome) := by
  unfold Srv.process
  simp only
  split
  · exact Or.inl ⟨_, [], _, s.refs, s.ns, s.closed, s.registered, rfl, rfl, by simp, by simp⟩
  · rename_i ser hser
    split
    · exact Or.inl ⟨_, [], _, s.refs, s.ns, s.closed, s.registered, rfl, rfl, by simp, by simp⟩
    · rename_i cs hcs
      split
      · exact Or.inl ⟨_, [], _, s.refs, s.ns, s.closed, s.registered, rfl, rfl, by simp, by simp⟩
      · rename_i opts _
        have h := action_state H { s with clients := s.clients.set c m.serType } c m.action opts
        generalize Srv.action H { s with clients := s.clients.set c m.serType } c m.action opts = st at h ⊢
        cases st with
        | finished s1 o r =>
          obtain ⟨⟨t, n, b1, b2, h1, h2, _⟩, h3⟩ := h
          exact Or.inl ⟨s1, o, r, t, n, b1, b2, rfl, h1, h2, h3⟩
        | running s1 o task =>
          obtain ⟨h1, h2, h3⟩ := h
          subst h1
          exact Or.inr ⟨o, task, rfl, h2, h3, by simp [hser], by simp [hcs]⟩

theorem process_proto {H : Heap} {s : Srv} (c : Bytes) (m : Msg) (hL : H.lib.Laws) (hty : Ty.int ∈ s.tys) :
    proto H.lib (⟨c, m.reqId, false⟩ :: s.openReqs) (s.process H c m).2 = some (s.process H c m).1.openReqs := by
  rcases process_cases H s c m with ⟨s1, o, r, t, n, b1, b2, h, h1, _, h3⟩ | ⟨o, task, h, h1, h2, _⟩
  · rw [h]
    simp only
    rw [proto_append, proto_neutral o _ (fun x hx => neutral_protoStep (h3 x hx) _)]
    simp only [Option.bind_some]
    rw [finish_proto _ _ _ _ _ hL (by rw [h1]; exact hty)]
    obtain ⟨t', b, d, hf, -⟩ := finish_state H s1 c m.reqId m.returnType (decide (m.action = "close")) r
    rw [hf, h1]; rfl
  · rw [h]
    simp only
    rw [proto_neutral o _ (fun x hx => neutral_protoStep (h1 x hx) _)]
    rfl

/-- a step never changes the address and the types -/
theorem step_const (s : Srv) (e : Ev) : (s.step e).1.tys = s.tys ∧ (s.step e).1.addr = s.addr := by
  cases e with
  | recv H parts =>
    simp only [Srv.step]
    split
    · exact ⟨rfl, rfl⟩
    split
    · exact ⟨rfl, rfl⟩
    · split
      · exact ⟨rfl, rfl⟩
      · rename_i c m _
        simp only
        rcases process_cases H s c m with ⟨s1, o, r, t, n, b1, b2, h, h1, _⟩ | ⟨o, task, h, _⟩
        · rw [h]
          obtain ⟨t', b, d, hf, -⟩ := finish_state H s1 c m.reqId m.returnType (decide (m.action = "close")) r
          rw [hf, h1]; exact ⟨rfl, rfl⟩
        · rw [h]; exact ⟨rfl, rfl⟩
  | ret H r =>
    simp only [Srv.step]
    split
    · exact ⟨rfl, rfl⟩
    · rename_i f st hst
      obtain ⟨t', b, d, hf, -⟩ := finish_state H { s with stack := st } f.caller f.reqId f.returnType false (f.task.result H r)
      rw [hf]; exact ⟨rfl, rfl⟩
  | publish H name v => simp only [Srv.step]; split <;> exact ⟨rfl, rfl⟩
  | mkProxy H v kw => exact ⟨rfl, rfl⟩

theorem step_proto {s : Srv} (e : Ev) (hL : e.heap.lib.Laws) (hty : Ty.int ∈ s.tys) :
    proto e.heap.lib s.openReqs (s.step e).2 = some (s.step e).1.openReqs := by
  cases e with
  | recv H parts =>
    simp only [Srv.step, Ev.heap]
    split
    · rfl
    split
    · rfl
    · split
      · rfl
      · rename_i c m _
        simp only
        rw [show ∀ o os, proto H.lib s.openReqs (o :: os) = proto H.lib s.openReqs ([o] ++ os) from fun _ _ => rfl, proto_append]
        simp only [proto, protoStep, Option.bind_some]
        exact process_proto c m hL hty
  | ret H r =>
    simp only [Srv.step, Ev.heap]
    split
    · rfl
    · rename_i f st hst
      simp only [Srv.openReqs, hst, List.map_cons]
      rw [finish_proto (H := H) (s := { s with stack := st }) _ _ _ _ _ hL hty]
      obtain ⟨t', b, d, hf, -⟩ := finish_state H { s with stack := st } f.caller f.reqId f.returnType false (f.task.result H r)
      rw [hf]
  | publish H name v =>
    simp only [Srv.step]
    split <;> rfl
  | mkProxy H v kw => rfl

theorem run_proto {L : Lib} (hL : L.Laws) : ∀ (es : List Ev) (s : Srv), (∀ e ∈ es, e.heap.lib = L) → Ty.int ∈ s.tys →
    proto L s.openReqs (s.run es).2 = some (s.run es).1.openReqs
  | [], s, _, _ => rfl
  | e :: es, s, h, hty => by
    have h1 := h e (by simp)
    simp only [Srv.run]
    rw [proto_append]
    have := step_proto (s := s) e (by rw [h1]; exact hL) hty
    rw [h1] at this
    rw [this]
    simp only [Option.bind_some]
    exact run_proto hL es _ (fun e he => h e (by simp [he])) (by rw [(step_const s e).1]; exact hty)

theorem run_append : ∀ (a b : List Ev) (s : Srv), s.run (a ++ b) = (((s.run a).1.run b).1, (s.run a).2 ++ ((s.run a).1.run b).2)
  | [], b, s => by simp [Srv.run]
  | e :: a, b, s => by simp only [List.cons_append, Srv.run, run_append a b, List.append_assoc]

/-! ## Counting replies from the automaton -/

/-- how many of the open requests are `(c, k)` -/
def openCount (c : Bytes) (k : Int) (st : List OpenReq) : Nat := st.countP fun o => decide (o.caller = c) && decide (o.id = k)
/-- how many of the open requests `(c, k)` were replied to -/
def repliedCount (c : Bytes) (k : Int) (st : List OpenReq) : Nat :=
  st.countP fun o => decide (o.caller = c) && decide (o.id = k) && o.replied

theorem protoStep_counts {L : Lib} {st st' : List OpenReq} {o : Out} (h : protoStep L st o = some st') (c : Bytes) (k : Int) :
    countAccepted c k [o] + openCount c k st = openCount c k st' + countDone c k [o] + countRaised c k [o] ∧
    countReplies L c k [o] + repliedCount c k st = repliedCount c k st' + (if 0 ≤ k then countDone c k [o] else 0) ∧
    ((∀ x ∈ st, x.replied = true → 0 ≤ x.id) → ∀ x ∈ st', x.replied = true → 0 ≤ x.id) ∧
    (k < 0 → countReplies L c k [o] = 0) := by
  cases o with
  | accept c' k' a =>
    simp only [protoStep, Option.some.injEq] at h; subst h
    refine ⟨?_, ?_, ?_, ?_⟩
    · simp [countAccepted, countDone, countRaised, openCount, List.countP_cons]; omega
    · simp [countReplies, countDone, repliedCount, List.countP_cons]
    · intro hx x hm hr
      simp only [List.mem_cons] at hm
      rcases hm with rfl | hm
      · simp at hr
      · exact hx x hm hr
    · simp [countReplies]
  | send c' ser w =>
    simp only [protoStep] at h
    split at h
    · rename_i k' hk'
      split at h
      · simp at h
      · rename_i o r
        split at h
        · rename_i hc
          obtain ⟨h1, h2, h3, h4⟩ := hc
          simp only [Option.some.injEq] at h; subst h
          obtain ⟨oc, oi, orr⟩ := o
          simp only at h1 h2 h4; subst h1 h2 h4
          refine ⟨?_, ?_, ?_, ?_⟩
          · simp [countAccepted, countDone, countRaised, openCount, List.countP_cons]
          · simp only [countReplies, countDone, repliedCount, List.countP_cons, List.countP_nil, hk', Option.some.injEq]
            by_cases ha : oc = c <;> by_cases hb : oi = k <;> simp [ha, hb] <;> omega
          · intro hx x hm hr
            simp only [List.mem_cons] at hm
            rcases hm with rfl | hm
            · exact h3
            · exact hx x (by simp [hm]) hr
          · intro hneg
            simp only [countReplies, List.countP_cons, List.countP_nil, hk', Option.some.injEq]
            by_cases hb : oi = k <;> simp [hb]
            omega
        · simp at h
    · rename_i hk'
      split at h
      · simp only [Option.some.injEq] at h; subst h
        refine ⟨?_, ?_, fun hx => hx, ?_⟩
        · simp [countAccepted, countDone, countRaised]
        · simp [countReplies, countDone, hk']
        · simp [countReplies, hk']
      · simp at h
  | done c' k' raised =>
    simp only [protoStep] at h
    split at h
    · simp at h
    · rename_i o r
      split at h
      · rename_i hc
        obtain ⟨h1, h2, h3⟩ := hc
        simp only [Option.some.injEq] at h; subst h
        obtain ⟨oc, oi, orr⟩ := o
        simp only at h1 h2 h3; subst h1 h2 h3
        refine ⟨?_, ?_, ?_, ?_⟩
        · cases raised with
          | none =>
            simp only [countAccepted, countDone, countRaised, openCount, List.countP_cons, List.countP_nil]
            simp
          | some e =>
            simp only [countAccepted, countDone, countRaised, openCount, List.countP_cons, List.countP_nil]
            simp
        · cases raised with
          | none =>
            simp only [countReplies, countDone, repliedCount, List.countP_cons, List.countP_nil, Option.isNone_none, Bool.true_and]
            by_cases ha : oc = c <;> by_cases hb : oi = k <;> simp [ha, hb]
          | some e =>
            simp [countReplies, countDone, repliedCount, List.countP_cons]
        · intro hx x hm hr
          exact hx x (by simp [hm]) hr
        · simp [countReplies]
      · simp at h
  | invoke _ _ _ => 
    simp only [protoStep, Option.some.injEq] at h; subst h
    exact ⟨by simp [countAccepted, countDone, countRaised], by simp [countReplies, countDone], fun hx => hx, by simp [countReplies]⟩
  | importing _ _ => 
    simp only [protoStep, Option.some.injEq] at h; subst h
    exact ⟨by simp [countAccepted, countDone, countRaised], by simp [countReplies, countDone], fun hx => hx, by simp [countReplies]⟩
  | hook _ => 
    simp only [protoStep, Option.some.injEq] at h; subst h
    exact ⟨by simp [countAccepted, countDone, countRaised], by simp [countReplies, countDone], fun hx => hx, by simp [countReplies]⟩
  | badRead _ => 
    simp only [protoStep, Option.some.injEq] at h; subst h
    exact ⟨by simp [countAccepted, countDone, countRaised], by simp [countReplies, countDone], fun hx => hx, by simp [countReplies]⟩

theorem proto_counts {L : Lib} (c : Bytes) (k : Int) : ∀ {os : List Out} {st st' : List OpenReq}, proto L st os = some st' →
    countAccepted c k os + openCount c k st = openCount c k st' + countDone c k os + countRaised c k os ∧
    countReplies L c k os + repliedCount c k st = repliedCount c k st' + (if 0 ≤ k then countDone c k os else 0) ∧
    (k < 0 → countReplies L c k os = 0)
  | [], st, st', h => by
    simp only [proto, Option.some.injEq] at h; subst h
    simp [countAccepted, countDone, countRaised, countReplies]
  | o :: os, st, st', h => by
    simp only [proto] at h
    split at h
    · rename_i st1 h1
      obtain ⟨a1, a2, _, a4⟩ := protoStep_counts h1 c k
      obtain ⟨b1, b2, b4⟩ := proto_counts c k h
      have e1 : countAccepted c k (o :: os) = countAccepted c k [o] + countAccepted c k os := by
        unfold countAccepted; rw [← List.countP_append]; rfl
      have e2 : countDone c k (o :: os) = countDone c k [o] + countDone c k os := by
        unfold countDone; rw [← List.countP_append]; rfl
      have e3 : countRaised c k (o :: os) = countRaised c k [o] + countRaised c k os := by
        unfold countRaised; rw [← List.countP_append]; rfl
      have e4 : countReplies L c k (o :: os) = countReplies L c k [o] + countReplies L c k os := by
        unfold countReplies; rw [← List.countP_append]; rfl
      rw [e1, e2, e3, e4]
      refine ⟨by omega, ?_, fun hk => by rw [a4 hk, b4 hk]⟩
      by_cases hk : 0 ≤ k
      · simp only [hk, if_true] at a2 b2 ⊢; omega
      · simp only [hk, if_false] at a2 b2 ⊢; omega
    · simp at h

end Verif
