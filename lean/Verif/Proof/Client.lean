import Verif.Spec.Client
/-! # Lemmas about the client -/
namespace Verif

theorem gone_get : ∀ (t : Dict Nat Bool) (f : Dict Nat Fut) (k : Nat),
    (t.foldl (fun f e => f.set e.1 Fut.gone) f).get? k = if (t.get? k).isSome then some .gone else f.get? k
  | [], f, k => by simp
  | e :: t, f, k => by
    simp only [List.foldl_cons]
    rw [gone_get t]
    obtain ⟨k', b⟩ := e
    by_cases h : k' = k
    · subst h; simp [Dict.get?]
    · simp [Dict.get?, h, Dict.get?_set]

/-- The invariant of a client. -/
structure Cli.Inv (c : Cli) : Prop where
  pend : ∀ k b, c.table.get? k = some b → c.futs.get? k = some .pending
  bound : ∀ k, c.futs.get? k ≠ none → k < c.nextId
  disc : c.disconnected = true → c.table = []

theorem Cli.inv_init (name ser) : (Cli.init name ser).Inv := ⟨by simp [Cli.init], by simp [Cli.init], by simp [Cli.init]⟩

theorem Cli.disconnected_inv {c : Cli} (h : c.Inv) : c.serverDisconnected.Inv where
  pend k b h1 := by simp [Cli.serverDisconnected] at h1
  bound k h1 := by
    simp only [Cli.serverDisconnected, gone_get] at h1
    apply h.bound
    split at h1
    · rename_i h2
      obtain ⟨b, hb⟩ := Option.isSome_iff_exists.1 h2
      rw [h.pend k b hb]; simp
    · exact h1
  disc _ := rfl

/-- the ways `send` ends -/
inductive SendCase (K : Codec) (E : SendEnv) (t : Refs) (c : Cli) (a : String) (o : Option Val) (rt sy : String) :
    Cli → Option (List Bytes) → Except Exc Sent → Prop where
  | disconnected : c.disconnected = true → SendCase K E t c a o rt sy c none (.error .runtimeError)
  | failed {e} : c.disconnected = false → SendCase K E t c a o rt sy { c with nextId := if sy = "off" then c.nextId else c.nextId + 1 } none (.error e)
  | off {b} : c.disconnected = false → c.sockOpen = true → sy = "off" →
      SendCase K E t c a o rt sy c (some [K.num (-1), K.text a, K.text rt, K.text c.ser.name, b]) (.ok .nothing)
  | sent {b r} : c.disconnected = false → c.sockOpen = true → sy ≠ "off" → r = (if sy = "async" then .future c.nextId else .wait c.nextId) →
      (sy = "async" ∨ sy = "sync") →
      SendCase K E t c a o rt sy { c with nextId := c.nextId + 1, table := c.table.set c.nextId (decide (a = "close")), futs := c.futs.set c.nextId .pending }
        (some [K.num c.nextId, K.text a, K.text rt, K.text c.ser.name, b]) (.ok r)
  | invalid {b} : c.disconnected = false → c.sockOpen = true → sy ≠ "off" → sy ≠ "async" → sy ≠ "sync" →
      SendCase K E t c a o rt sy { c with nextId := c.nextId + 1 } (some [K.num c.nextId, K.text a, K.text rt, K.text c.ser.name, b]) (.error .valueError)

theorem send_cases (K : Codec) (E : SendEnv) (t : Refs) (c : Cli) (a o rt sy) :
    SendCase K E t c a o rt sy (c.send K E t a o rt sy).2.1 (c.send K E t a o rt sy).2.2.1 (c.send K E t a o rt sy).2.2.2 := by
  unfold Cli.send
  split
  · rename_i h; exact .disconnected h
  · rename_i hd
    have hd : c.disconnected = false := by simpa using hd
    by_cases hoff : sy = "off"
    · simp only [hoff, if_true]
      split
      case h_1 e he =>
        have := SendCase.failed (K := K) (E := E) (t := t) (c := c) (a := a) (o := o) (rt := rt) (sy := "off") (e := e) hd
        simp only [if_true] at this; exact this
      case h_2 b hb =>
        split
        · have := SendCase.failed (K := K) (E := E) (t := t) (c := c) (a := a) (o := o) (rt := rt) (sy := "off") (e := .zmqError) hd
          simp only [if_true] at this; exact this
        · rename_i hs
          exact .off hd (by simpa using hs) rfl
    · simp only [hoff, if_false]
      split
      case h_1 e he =>
        have := SendCase.failed (K := K) (E := E) (t := t) (c := c) (a := a) (o := o) (rt := rt) (sy := sy) (e := e) hd
        simp only [hoff, if_false] at this; exact this
      case h_2 b hb =>
        split
        · have := SendCase.failed (K := K) (E := E) (t := t) (c := c) (a := a) (o := o) (rt := rt) (sy := sy) (e := .zmqError) hd
          simp only [hoff, if_false] at this; exact this
        · rename_i hs
          have hs : c.sockOpen = true := by simpa using hs
          simp only [Nat.add_sub_cancel]
          by_cases ha : sy = "async"
          · simp only [ha, if_true]
            exact .sent (b := b) hd hs (by decide) (by simp) (Or.inl rfl)
          · by_cases hy : sy = "sync"
            · subst hy
              simp only [if_neg ha, if_true]
              exact .sent (b := b) hd hs (by decide) (by simp) (Or.inr rfl)
            · simp only [if_neg ha, if_neg hy]
              exact .invalid hd hs hoff ha hy

theorem send_inv {K E t} {c : Cli} {a o rt sy} (h : c.Inv) : (c.send K E t a o rt sy).2.1.Inv := by
  have hc := send_cases K E t c a o rt sy
  generalize (c.send K E t a o rt sy).2.1 = c' at hc
  generalize (c.send K E t a o rt sy).2.2.1 = m at hc
  generalize (c.send K E t a o rt sy).2.2.2 = r at hc
  have hnew : c.futs.get? c.nextId = none := by
    apply Classical.byContradiction; intro hn; exact absurd (h.bound _ hn) (by omega)
  cases hc with
  | disconnected _ => exact h
  | failed _ => exact ⟨h.pend, fun k hk => by have := h.bound k hk; simp only; split <;> omega, h.disc⟩
  | off _ _ _ => exact h
  | sent hd _ _ _ _ =>
    refine ⟨?_, ?_, fun h1 => by simp [hd] at h1⟩
    · intro k b hk
      simp only [Dict.get?_set] at hk ⊢
      split
      · rfl
      · rename_i hne; rw [if_neg hne] at hk; exact h.pend k b hk
    · intro k hk
      simp only [Dict.get?_set] at hk ⊢
      split at hk
      · rename_i he; omega
      · have := h.bound k hk; omega
  | invalid _ _ _ _ _ => exact ⟨h.pend, fun k hk => by have := h.bound k hk; simp only; omega, h.disc⟩

/-- what `process_msg` does -/
inductive MsgCase (P : CliEnv) (c : Cli) (msg : Val) : Cli → Except Exc Unit → Prop where
  /-- nothing changes -/
  | ignored {r} : (∀ d k b f, msg = .dict d → IsReply P d k → c.table.get? k = some b → ¬ Says P d f) →
      (∀ d, msg = .dict d → ¬ IsDisconnect d) →
      (∀ d, msg = .dict d → ServerMsg d → ∀ k, IsReply P d k → c.table.get? k = none) → MsgCase P c msg c r
  /-- the future is taken out of the table, then an exception -/
  | lost {d k b e} : msg = .dict d → IsReply P d k → c.table.get? k = some b → (∀ f, ¬ Says P d f) → ¬ ServerMsg d →
      MsgCase P c msg { c with table := c.table.erase k } (.error e)
  | set {d k b f} : msg = .dict d → IsReply P d k → c.table.get? k = some b → Says P d f → ¬ (b = true ∧ f = .value (.bool true)) →
      MsgCase P c msg { c with table := c.table.erase k, futs := c.futs.set k f } (.ok ())
  | closed {d k} : msg = .dict d → IsReply P d k → c.table.get? k = some true → Says P d (.value (.bool true)) →
      MsgCase P c msg ({ c with table := c.table.erase k, futs := c.futs.set k (.value (.bool true)) } : Cli).serverDisconnected (.ok ())
  | disconnect {d} : msg = .dict d → IsDisconnect d → MsgCase P c msg c.serverDisconnected (.ok ())

theorem isReply_unique {P d k k'} (h : IsReply P d k) (h' : IsReply P d k') : k = k' := by
  obtain ⟨_, v, h1, h2⟩ := h
  obtain ⟨_, v', h1', h2'⟩ := h'
  rw [h1] at h1'; simp only [Option.some.injEq] at h1'; subst h1'
  rw [h2] at h2'; simp only [Except.ok.injEq, Option.some.injEq] at h2'; omega

theorem isReply_disconnect {P d k} (h : IsReply P d k) : ¬ IsDisconnect d := by
  intro h'
  simp only [IsDisconnect, h.1, Option.some.injEq, Val.str.injEq] at h'
  exact absurd h' (by decide)

theorem says_unique {P d f f'} (h : Says P d f) (h' : Says P d f') : f = f' := by
  cases f with
  | pending => exact h.elim
  | gone => exact h.elim
  | value v =>
    cases f' with
    | pending => exact h'.elim
    | gone => exact h'.elim
    | value v' =>
      have := h.2.symm.trans h'.2
      simpa using this
    | remote a b =>
      obtain ⟨err, h1, h2, _⟩ := h'
      have := h.1.symm.trans h1
      simp only [Option.some.injEq] at this
      exact (h2 this.symm).elim
  | remote a b =>
    obtain ⟨err, h1, h2, h3⟩ := h
    cases f' with
    | pending => exact h'.elim
    | gone => exact h'.elim
    | value v' =>
      have := h'.1.symm.trans h1
      simp only [Option.some.injEq] at this
      exact (h2 this.symm).elim
    | remote a' b' =>
      obtain ⟨err', h1', _, h3'⟩ := h'
      rw [h1] at h1'; simp only [Option.some.injEq] at h1'; subst h1'
      rw [h3] at h3'
      simp only [Except.ok.injEq, Prod.mk.injEq] at h3'
      rw [h3'.1, h3'.2]

/-- what a server sends says something -/
theorem serverMsg_says {P d k} (h : ServerMsg d) (hr : IsReply P d k) : ∃ f, Says P d f := by
  rcases h with h | ⟨_, _, ⟨v, hv⟩, h | ⟨a, b, h | h⟩⟩
  · exact absurd h (isReply_disconnect hr)
  · exact ⟨.value v, h, hv⟩
  · exact ⟨.remote a b, _, h, by simp, rfl⟩
  · exact ⟨.remote a b, _, h, by simp, rfl⟩

theorem field_ok {d k v} : field d k = .ok v ↔ lookupStr d k = some v := by
  unfold field; split <;> simp_all
theorem field_err {d k e} (h : field d k = .error e) : lookupStr d k = none := by
  unfold field at h; split at h <;> simp_all

theorem processMsg_cases (P : CliEnv) (c : Cli) (msg : Val) : MsgCase P c msg (c.processMsg P msg).1 (c.processMsg P msg).2 := by
  unfold Cli.processMsg
  split
  case h_2 _ hn => exact .ignored (fun d _ _ _ h => (hn d h).elim) (fun d h => (hn d h).elim) (fun d h => (hn d h).elim)
  case h_1 d =>
    split
    case h_1 e he =>
      have h0 := field_err he
      refine .ignored ?_ ?_ ?_
      · rintro d' k b f h1 ⟨h2, _⟩; simp only [Val.dict.injEq] at h1; subst h1; rw [h0] at h2; simp at h2
      · rintro d' h1 h2; simp only [Val.dict.injEq] at h1; subst h1; rw [IsDisconnect, h0] at h2; simp at h2
      · rintro d' h1 _ k ⟨h2, _⟩; simp only [Val.dict.injEq] at h1; subst h1; rw [h0] at h2; simp at h2
    case h_2 ha =>
      have ha := field_ok.1 ha
      have hnd : ¬ IsDisconnect d := by
        intro h; simp only [IsDisconnect, ha, Option.some.injEq, Val.str.injEq] at h; exact absurd h (by decide)
      have hno : (∀ k, IsReply P d k → c.table.get? k = none) → ∀ r, MsgCase P c (.dict d) c r := by
        intro h r
        refine .ignored ?_ ?_ ?_
        · rintro d' k b f h1 h2 h3; simp only [Val.dict.injEq] at h1; subst h1; rw [h k h2] at h3; simp at h3
        · rintro d' h1; simp only [Val.dict.injEq] at h1; subst h1; exact hnd
        · rintro d' h1 _; simp only [Val.dict.injEq] at h1; subst h1; exact h
      have hk : ∀ k, IsReply P d k → (do reqKey P.other (← field d "req_id")) = .ok (some (k : Int)) := by
        rintro k ⟨_, v, h1, h2⟩
        rw [field_ok.2 h1]; exact h2
      split
      case h_1 e he => exact hno (fun k h => by rw [hk k h] at he; simp at he) _
      case h_2 he => exact hno (fun k h => by rw [hk k h] at he; simp at he) _
      case h_3 i he =>
        by_cases hi : i < 0
        · rw [if_pos hi]
          exact hno (fun k h => by rw [hk k h] at he; simp at he; omega) _
        · rw [if_neg hi]
          simp only
          have hrep : IsReply P d i.toNat := by
            refine ⟨ha, ?_⟩
            cases hf : field d "req_id" with
            | error e => rw [hf] at he; simp [bind, Except.bind] at he
            | ok v =>
              rw [hf] at he; simp only [bind, Except.bind] at he
              refine ⟨v, field_ok.1 hf, ?_⟩
              rw [he, Int.toNat_of_nonneg (by omega)]
          split
          case h_1 hn => exact hno (fun k h => by rw [isReply_unique h hrep]; exact hn) _
          case h_2 b hb =>
            split
            case h_1 e hf =>
              have h0 := field_err hf
              have hs : ∀ f, ¬ Says P d f := by
                intro f h; cases f with
                | pending => exact h
                | gone => exact h
                | value v => have := h.1; rw [h0] at this; simp at this
                | remote a b => obtain ⟨err, h1, _⟩ := h; rw [h0] at h1; simp at h1
              exact .lost rfl hrep hb hs (fun h => by obtain ⟨f, hf⟩ := serverMsg_says h hrep; exact hs f hf)
            case h_2 hf =>
              have h0 := field_ok.1 hf
              split
              case h_1 e hv =>
                have h1 := field_err hv
                have hs : ∀ f, ¬ Says P d f := by
                  intro f h; cases f with
                  | pending => exact h
                  | gone => exact h
                  | value v => have := h.2; rw [h1] at this; simp at this
                  | remote a b => obtain ⟨err, h2, h3, _⟩ := h; rw [h0] at h2; simp at h2; exact h3 h2.symm
                exact .lost rfl hrep hb hs (fun h => by obtain ⟨f, hf⟩ := serverMsg_says h hrep; exact hs f hf)
              case h_2 v hv =>
                have h1 := field_ok.1 hv
                split
                · exact .closed rfl hrep hb ⟨h0, h1⟩
                · rename_i hnt
                  refine .set rfl hrep hb (f := .value v) ⟨h0, h1⟩ ?_
                  rintro ⟨rfl, h2⟩
                  simp only [Fut.value.injEq] at h2
                  exact hnt rfl h2
            case h_3 err hne hf =>
              have h0 := field_ok.1 hf
              have hnn : ∀ h : err = .none, False := by intro h; subst h; exact hne rfl
              split
              case h_1 e hu =>
                have hs : ∀ f, ¬ Says P d f := by
                  intro f h; cases f with
                  | pending => exact h
                  | gone => exact h
                  | value v => have := h.1; rw [h0] at this; simp only [Option.some.injEq] at this; exact hnn this
                  | remote a b =>
                    obtain ⟨err', h2, _, h3⟩ := h
                    rw [h0] at h2; simp only [Option.some.injEq] at h2; subst h2
                    rw [hu] at h3; simp at h3
                exact .lost rfl hrep hb hs (fun h => by obtain ⟨f, hf⟩ := serverMsg_says h hrep; exact hs f hf)
              case h_2 a b' hu =>
                exact .set rfl hrep hb (f := .remote a b') ⟨err, h0, hnn, hu⟩ (by simp)
    case h_3 ha => exact .disconnect rfl (field_ok.1 ha)
    case h_4 v hn1 hn2 ha =>
      have ha := field_ok.1 ha
      refine .ignored ?_ ?_ ?_
      · rintro d' k b f h1 ⟨h2, _⟩; simp only [Val.dict.injEq] at h1; subst h1; rw [ha] at h2; simp at h2; exact (hn1 h2).elim
      · rintro d' h1 h2; simp only [Val.dict.injEq] at h1; subst h1; rw [IsDisconnect, ha] at h2; simp at h2; exact (hn2 h2).elim
      · rintro d' h1 _ k ⟨h2, _⟩; simp only [Val.dict.injEq] at h1; subst h1; rw [ha] at h2; simp at h2; exact (hn1 h2).elim

theorem Cli.erase_inv {c : Cli} (h : c.Inv) (k : Nat) : ({ c with table := c.table.erase k } : Cli).Inv where
  pend k' b h1 := by
    simp only [Dict.get?_erase] at h1
    split at h1
    · simp at h1
    · exact h.pend k' b h1
  bound := h.bound
  disc h1 := by simp [h.disc h1, Dict.erase]

theorem Cli.setFut_inv {c : Cli} (h : c.Inv) {k b} (hb : c.table.get? k = some b) (f : Fut) :
    ({ c with table := c.table.erase k, futs := c.futs.set k f } : Cli).Inv where
  pend k' b h1 := by
    simp only [Dict.get?_erase, Dict.get?_set] at h1 ⊢
    split at h1
    · simp at h1
    · rename_i hne; rw [if_neg hne]; exact h.pend k' b h1
  bound k' h1 := by
    simp only [Dict.get?_set] at h1
    split at h1
    · rename_i he; subst he; apply h.bound; rw [h.pend _ b hb]; simp
    · exact h.bound k' h1
  disc h1 := by simp [h.disc h1, Dict.erase]

theorem processMsg_inv {P} {c : Cli} {msg} (h : c.Inv) : (c.processMsg P msg).1.Inv := by
  have hc := processMsg_cases P c msg
  generalize (c.processMsg P msg).1 = c' at hc
  generalize (c.processMsg P msg).2 = r at hc
  cases hc with
  | ignored _ _ _ => exact h
  | lost _ _ _ _ _ => exact Cli.erase_inv h _
  | set _ _ hb _ _ => exact Cli.setFut_inv h hb _
  | closed _ _ hb _ => exact Cli.disconnected_inv (Cli.setFut_inv h hb _)
  | disconnect _ _ => exact Cli.disconnected_inv h

theorem receive_inv {P} {c : Cli} {w} (h : c.Inv) : (c.receive P w).1.Inv := by
  unfold Cli.receive
  split
  · exact h
  · split
    · exact h
    · exact processMsg_inv h

theorem step_inv {K} {c : Cli} (e : CEv) (h : c.Inv) : (c.step K e).1.Inv := by
  cases e with
  | send E t a o rt sy => exact send_inv h
  | recv P w => exact receive_inv h
  | drop k =>
    refine ⟨?_, ?_, ?_⟩
    · intro k' b h1
      simp only [Cli.step, Cli.drop, Dict.get?_erase] at h1 ⊢
      split at h1
      · simp at h1
      · rename_i hne; rw [if_neg hne]; exact h.pend k' b h1
    · intro k' h1
      simp only [Cli.step, Cli.drop, Dict.get?_erase] at h1 ⊢
      split at h1
      · simp at h1
      · exact h.bound k' h1
    · intro h1; simp only [Cli.step, Cli.drop] at h1 ⊢; rw [h.disc h1]; rfl
  | close => exact ⟨h.pend, h.bound, h.disc⟩

theorem run_inv {K} : ∀ (es : List CEv) {c : Cli}, c.Inv → (c.run K es).1.Inv
  | [], _, h => h
  | e :: es, _, h => run_inv es (step_inv e h)

/-! ## Things that never change -/

theorem processMsg_const (P) (c : Cli) (msg) : (c.processMsg P msg).1.name = c.name ∧ (c.processMsg P msg).1.ser = c.ser ∧
    (c.processMsg P msg).1.nextId = c.nextId ∧ (c.processMsg P msg).1.sockOpen = c.sockOpen ∧
    (c.disconnected = true → (c.processMsg P msg).1.disconnected = true) := by
  have hc := processMsg_cases P c msg
  generalize (c.processMsg P msg).1 = c' at hc
  generalize (c.processMsg P msg).2 = r at hc
  cases hc <;> simp [Cli.serverDisconnected]

theorem receive_const (P) (c : Cli) (w) : (c.receive P w).1.name = c.name ∧ (c.receive P w).1.ser = c.ser ∧
    (c.receive P w).1.nextId = c.nextId ∧ (c.receive P w).1.sockOpen = c.sockOpen ∧
    (c.disconnected = true → (c.receive P w).1.disconnected = true) := by
  unfold Cli.receive
  split
  · simp
  · split
    · simp
    · exact processMsg_const ..

theorem send_const (K E t) (c : Cli) (a o rt sy) : (c.send K E t a o rt sy).2.1.name = c.name ∧ (c.send K E t a o rt sy).2.1.ser = c.ser ∧
    (c.send K E t a o rt sy).2.1.disconnected = c.disconnected ∧ (c.send K E t a o rt sy).2.1.sockOpen = c.sockOpen := by
  have hc := send_cases K E t c a o rt sy
  generalize (c.send K E t a o rt sy).2.1 = c' at hc
  generalize (c.send K E t a o rt sy).2.2.1 = m at hc
  generalize (c.send K E t a o rt sy).2.2.2 = r at hc
  cases hc <;> simp

theorem step_const' (K) (c : Cli) (e) : (c.step K e).1.name = c.name ∧ (c.step K e).1.ser = c.ser ∧
    (c.disconnected = true → (c.step K e).1.disconnected = true) := by
  cases e with
  | send E t a o rt sy =>
    obtain ⟨h1, h2, h3, _⟩ := send_const K E t c a o rt sy
    exact ⟨h1, h2, fun h => h3.trans h⟩
  | recv P w =>
    obtain ⟨h1, h2, _, _, h3⟩ := receive_const P c w
    exact ⟨h1, h2, h3⟩
  | drop k => exact ⟨rfl, rfl, id⟩
  | close => exact ⟨rfl, rfl, id⟩

theorem run_const (K) : ∀ (es : List CEv) (c : Cli), (c.run K es).1.name = c.name ∧ (c.run K es).1.ser = c.ser ∧
    (c.disconnected = true → (c.run K es).1.disconnected = true)
  | [], _ => ⟨rfl, rfl, id⟩
  | e :: es, c => by
    obtain ⟨h1, h2, h3⟩ := step_const' K c e
    obtain ⟨h4, h5, h6⟩ := run_const K es (c.step K e).1
    exact ⟨h4.trans h1, h5.trans h2, fun h => h6 (h3 h)⟩

end Verif
