import Verif.Proof.ServerSteps
import Verif.Proof.Client
import Verif.Spec.System
import Verif.Props.ServerReply
/-! # What a client reads from a server's messages -/
namespace Verif

theorem pack_int_reads {E : SendEnv} {R : RecvEnv} (hL : E.lib.Laws) (hR : R.lib = E.lib) (hty : Ty.int ∈ E.tys) {n t i t' w}
    (h : pack E n t (.int i) = (t', .ok w)) : unpack R w = .ok (.int i) := by
  cases n with
  | zero => simp [pack] at h
  | succ n =>
    simp only [pack] at h
    split at h
    · simp only [Prod.mk.injEq, Except.ok.injEq] at h
      rw [← h.2]; rfl
    · have hi : (Val.int i).isinstance E.tys = true := by simp [Val.isinstance, Val.types, hty]
      simp only [encode, hi, if_true, encodeValue, Val.core] at h
      cases hp : E.lib.pickleDumps (.int i) with
      | error e => simp [hp] at h
      | ok b =>
        simp only [hp] at h
        cases n with
        | zero => simp [mapS, pairS, pack] at h
        | succ n =>
          simp only [mapS, pairS, pack, Prod.mk.injEq, Except.ok.injEq] at h
          rw [← h.2]
          simp only [unpack, unpackM, keyOk, not_true_eq_false, if_false]
          simp only [dictOf, List.foldl, itemSet, keyEq, encodeKey, decode, lookupStr, if_true]
          simp [removeStr, Val.text?, Val.core, need, lookupStr, hR, hL.pickle _ _ hp]

/-- whatever is read from a reply is a reply with the same id, and no error if there was none -/
theorem loads_reply {E : SendEnv} {R : RecvEnv} (hL : E.lib.Laws) (hR : R.lib = E.lib) (hty : Ty.int ∈ E.tys) {ser : Ser} {t k v e t' w msg}
    (h : ser.dumps E t (replyDict k v e) = (t', .ok w)) (hl : ser.loads R w = .ok msg) :
    ∃ rv ev, msg = replyDict k rv ev ∧ (e = .none → ev = .none) := by
  cases ser with
  | msgpack =>
    simp only [Ser.dumps, msgpackDumps, replyDict] at h
    obtain ⟨n, hn⟩ : ∃ n, msgpackDepth = n + 1 := ⟨511, rfl⟩
    rw [hn] at h
    simp only [pack] at h
    split at h
    · rename_i t1 m hm
      simp only [Prod.mk.injEq, Except.ok.injEq] at h
      obtain ⟨rfl, rfl⟩ := h
      obtain ⟨ta, tb, w1, m1, rfl, h1, h2⟩ := mapField_pack hm rfl
      obtain ⟨tc, td, w2, m2, rfl, h3, h4⟩ := mapField_pack h2 rfl
      obtain ⟨te, tf, w3, m3, rfl, h5, h6⟩ := mapField_pack h4 rfl
      obtain ⟨tg, th, w4, m4, rfl, h7, h8⟩ := mapField_pack h6 rfl
      simp only [mapS, Prod.mk.injEq, Except.ok.injEq] at h8
      obtain ⟨rfl, rfl⟩ := h8
      have hw1 : w1 = .str "return" := by
        cases n with
        | zero => simp [pack] at h1
        | succ n => simp only [pack, Prod.mk.injEq, Except.ok.injEq] at h1; exact h1.2.symm
      subst hw1
      have hi := pack_int_reads (R := R) hL hR hty h3
      simp only [Ser.loads, msgpackLoads, unpack, unpackM, keyOk, hi, not_true_eq_false, if_false] at hl
      cases h9 : unpack R w3 with
      | error x => rw [h9] at hl; simp at hl
      | ok rv =>
        cases h10 : unpack R w4 with
        | error x => rw [h9, h10] at hl; simp at hl
        | ok ev =>
          rw [h9, h10] at hl
          simp [dictOf, itemSet, keyEq, decode, lookupStr, encodeKey] at hl
          refine ⟨rv, ev, hl.symm, ?_⟩
          rintro rfl
          cases n with
          | zero => simp [pack] at h7
          | succ n =>
            simp only [pack, Prod.mk.injEq, Except.ok.injEq] at h7
            rw [← h7.2] at h10
            simp only [unpack, Except.ok.injEq] at h10
            exact h10.symm
    · simp at h
  | json =>
    simp only [Ser.dumps, jsonDumps, replyDict] at h
    obtain ⟨n, hn⟩ : ∃ n, jsonDepth = n + 1 := ⟨999, rfl⟩
    rw [hn] at h
    simp only [jpack, Val.core] at h
    split at h
    · rename_i t1 m hm
      simp only [Prod.mk.injEq, Except.ok.injEq] at h
      obtain ⟨rfl, rfl⟩ := h
      obtain ⟨ta, tb, w1, m1, rfl, h1, h2⟩ := jmapField_pack hm rfl
      obtain ⟨tc, td, w2, m2, rfl, h3, h4⟩ := jmapField_pack h2 rfl
      obtain ⟨te, tf, w3, m3, rfl, h5, h6⟩ := jmapField_pack h4 rfl
      obtain ⟨tg, th, w4, m4, rfl, h7, h8⟩ := jmapField_pack h6 rfl
      simp only [mapS, Prod.mk.injEq, Except.ok.injEq] at h8
      obtain ⟨rfl, rfl⟩ := h8
      cases n with
      | zero => simp [jpack] at h1
      | succ n =>
        simp only [jpack, Val.core, Prod.mk.injEq, Except.ok.injEq] at h1 h3
        rw [← h1.2, ← h3.2] at hl
        simp only [Ser.loads, jsonLoads, junpack, junpackM] at hl
        cases h9 : junpack R w3 with
        | error x => rw [h9] at hl; simp at hl
        | ok rv =>
          cases h10 : junpack R w4 with
          | error x => rw [h9, h10] at hl; simp at hl
          | ok ev =>
            rw [h9, h10] at hl
            simp [dictOf, itemSet, keyEq, jdecode, decode, lookupStr, encodeKey] at hl
            refine ⟨rv, ev, hl.symm, ?_⟩
            rintro rfl
            simp only [jpack, Val.core, Prod.mk.injEq, Except.ok.injEq] at h7
            rw [← h7.2] at h10
            simp only [junpack, Except.ok.injEq] at h10
            exact h10.symm
    · simp at h

theorem isReply_replyDict {P : CliEnv} {k : Int} {rv ev : Val} {d k'} (hd : Val.dict d = replyDict k rv ev) (h : IsReply P d k') : k = k' := by
  simp only [replyDict, Val.dict.injEq] at hd; subst hd
  obtain ⟨_, v, h1, h2⟩ := h
  simp [lookupStr] at h1
  subst h1
  simpa [reqKey] using h2

theorem says_replyDict {P : CliEnv} {k : Int} {rv ev : Val} {d f} (hd : Val.dict d = replyDict k rv ev) (h : Says P d f) :
    (ev = .none ∧ f = .value rv) ∨ (∃ a b, f = .remote a b ∧ unpack2 P.unpack ev = .ok (a, b) ∧ ∀ h : ev = .none, False) := by
  simp only [replyDict, Val.dict.injEq] at hd; subst hd
  cases f with
  | pending => exact h.elim
  | gone => exact h.elim
  | value v =>
    simp [Says, lookupStr] at h
    exact .inl ⟨h.1, by rw [h.2]⟩
  | remote a b =>
    obtain ⟨err, h1, h2, h3⟩ := h
    simp [lookupStr] at h1
    subst h1
    exact .inr ⟨a, b, rfl, h3, h2⟩

theorem convert_byValue {H : Heap} {s : Srv} {rt v} (h : SentByValue s.tys rt v) : s.convert H rt v = (s, v) := by
  unfold Srv.convert
  by_cases h3 : rt = "auto"
  · rw [if_pos h3, if_pos (h.2 h3)]
  · rw [if_neg h3, if_neg h.1]

theorem convert_byProxy {H : Heap} {s : Srv} {rt v} (h : ¬ SentByValue s.tys rt v) : s.convert H rt v = s.proxyTo H v := by
  unfold Srv.convert
  by_cases h3 : rt = "auto"
  · rw [if_pos h3, if_neg]
    intro h4
    exact h ⟨by rw [h3]; decide, fun _ => h4⟩
  · by_cases h4 : rt = "proxy"
    · rw [if_neg h3, if_pos h4]
    · exact absurd ⟨h4, fun h5 => absurd h5 h3⟩ h

/-- what a client reads from a reply reports the outcome it was made of -/
theorem reports {L : Lib} {H : Heap} {s : Srv} {c0 rt r k ser w t} {P : CliEnv} {d k' f} (hr : ReplyOf H c0 s rt r k ser w t)
    (hlink : Link L (s.sendEnv H) P.recv) (hlive : LiveTable H s.refs) (hl : ser.loads P.recv w = .ok (.dict d))
    (hi : IsReply P d k') (hs : Says P d f) : k = k' ∧ Reports L c0 k H P.recv ser s t rt r f := by
  have hL : (s.sendEnv H).lib.Laws := hlink.sender ▸ hlink.laws
  have hR : P.recv.lib = (s.sendEnv H).lib := hlink.receiver.trans hlink.sender.symm
  have hty : Ty.int ∈ (s.sendEnv H).tys := hlink.types _ (by decide)
  rcases hr with ⟨v, rfl, hd⟩ | ⟨x, t1, hutf, hd, hx⟩
  · obtain ⟨rv, ev, hm, he⟩ := loads_reply hL hR hty hd hl
    refine ⟨isReply_replyDict hm hi, ?_⟩
    have he := he rfl
    subst he
    rcases says_replyDict hm hs with ⟨_, rfl⟩ | ⟨a, b, _, _, h⟩
    · by_cases hv : SentByValue s.tys rt v
      · rw [convert_byValue hv] at hd
        refine .value v rv hv fun hsd => ?_
        obtain ⟨h0, hr0, ha0⟩ := hlive.ok s
        obtain ⟨rv', ev', h1, h2, _⟩ := dumps_arrives hlink hr0 ha0 hsd (none_sendable ser P.recv) hd
        rw [hl, hm] at h1
        simp [replyDict] at h1
        rw [h1.1]; exact h2
      · rw [convert_byProxy hv] at hd
        obtain ⟨t0, p, rs, h1, h2, h3, h4, h5, h6, h7⟩ := proxyTo_spec hlive v
        have hp : Path H.idOf H.ident s.refs t0 := by have := proxyTo_path H s v; rw [h1] at this; exact this
        have hl0 := hlive.path hp
        rw [h1] at hd
        simp only at hd
        have hrec : received P.recv p = .ok (.proxy p) := by
          have hn := hlink.notOwner
          unfold received
          cases hR : P.recv.server with
          | none => rfl
          | some x =>
            obtain ⟨a, u⟩ := x
            have := hn a u hR
            simp only [Srv.sendEnv, ne_eq, Option.some.injEq] at this
            rw [← h2] at this
            simp [this]
        obtain ⟨h0, hr0, ha0⟩ := hl0.ok s
        obtain ⟨rv', ev', h8, h9, _⟩ := dumps_arrives hlink hr0 ha0 (proxy_sendable ser hrec) (none_sendable ser P.recv) hd
        rw [hl, hm] at h8
        simp [replyDict] at h8
        have h9 := proxy_arrives h9
        rw [hrec] at h9
        simp only [Except.ok.injEq] at h9
        obtain ⟨rs', hk1, _⟩ := dumps_grows (keeps_grows H s) ser t0 (replyDict k (.proxy p) .none) p.oid _ rs h5
        rw [hd] at hk1
        rw [h8.1, ← h9]
        exact .proxy v p hv h2 h3 (by rw [Refs.lookup, hk1])
    · exact (h rfl).elim
  · have hlive1 : LiveTable H t1 := by
      rcases hx with ⟨_, rfl⟩ | ⟨v, _, hv⟩
      · exact hlive
      · refine hlive.path ?_
        have h1 := convert_path H s rt v
        have h2 := dumps_grows (path_grows H s) ser (s.convert H rt v).1.refs (replyDict k (s.convert H rt v).2 .none)
        rw [hv] at h2
        exact h1.trans h2
    obtain ⟨h0, hr0, ha0⟩ := hlive1.ok s
    obtain ⟨rv', ev', h8, _, h9⟩ := dumps_arrives hlink hr0 ha0 (none_sendable ser P.recv) (error_sendable ser P.recv x.name (H.transcript c0 k)) hd
    rw [hl] at h8
    simp only [Except.ok.injEq] at h8
    have h9 := error_arrives h9
    subst h9
    refine ⟨isReply_replyDict h8 hi, ?_⟩
    have hu : unpack2 P.unpack (ser.pair (.str x.name) (.list ((H.transcript c0 k).map .str))) = .ok (.str x.name, .list ((H.transcript c0 k).map .str)) := by
      cases ser <;> rfl
    rcases says_replyDict h8 hs with ⟨h, _⟩ | ⟨a, b, rfl, h10, _⟩
    · cases ser <;> simp [Ser.pair] at h
    · rw [hu] at h10
      simp only [Except.ok.injEq, Prod.mk.injEq] at h10
      obtain ⟨rfl, rfl⟩ := h10
      rcases hx with ⟨rfl, _⟩ | ⟨v, rfl, hv⟩
      · exact .raised x hutf
      · by_cases hsv : SentByValue s.tys rt v
        · refine .unserializable v x hutf hsv fun hser => ?_
          rw [convert_byValue hsv] at hv
          obtain ⟨t', w', h⟩ := serializable_dumps hL hlink.types (by simp [Srv.sendEnv]) (ser := ser) (v := v)
            (by rw [hlink.sender]; exact hser) s.refs k
          simp only at hv
          rw [h] at hv; simp at hv
        · exfalso
          rw [convert_byProxy hsv] at hv
          obtain ⟨t0, p, rs, h1, _⟩ := proxyTo_spec hlive v
          rw [h1] at hv
          obtain ⟨t', w', h⟩ := proxyReply_dumps hL hlink.types (by simp [Srv.sendEnv]) ser t0 k p
          simp only at hv
          rw [h] at hv; simp at hv

end Verif
