import Verif.Spec.LogRemote
import Verif.Proof.Serializer
import Verif.Proof.Registry
/-!
# Lemmas for log forwarding
-/
namespace Verif

/-! ## JSON -/

theorem fields_pairwise {d : Fields} (h : d.WF) :
    (d.map fun kv : String × Val => (Val.str kv.1, kv.2)).Pairwise (fun a b => keyEq a.1 b.1 = false) := by
  unfold Dict.WF at h
  rw [List.pairwise_map]
  unfold List.Nodup at h
  rw [List.pairwise_map] at h
  exact h.imp (fun {a b} hab => by simpa [keyEq] using hab)

theorem mapE_exc {α β : Type} {f : α → Except Exc β} {P : Exc → Prop} (H : ∀ a e, f a = .error e → P e) : ∀ {l : List α} {e}, mapE f l = .error e → P e
  | [], e, h => by simp [mapE] at h
  | a :: as, e, h => by
    simp only [mapE] at h
    split at h
    · rename_i e' he; cases h; exact H a _ he
    · split at h
      · rename_i e' he; cases h; exact mapE_exc H he
      · cases h

theorem jkey_exc {L : Lib} {k : Val} {e} (h : jkey L k = .error e) : e = .typeError := by
  unfold jkey at h
  split at h <;> cases h
  rfl

theorem plainDumps_exc (L : Lib) : ∀ (n : Nat) (v : Val) (e : Exc), plainDumps L n v = .error e → e = .typeError ∨ e = .other "RecursionError"
  | 0, v, e, h => by simp only [plainDumps, Except.error.injEq] at h; exact .inr h.symm
  | n + 1, v, e, h => by
    simp only [plainDumps] at h
    split at h <;> try (first | cases h; done | (cases h; exact .inl rfl))
    · split at h
      · cases h
      · rename_i he; cases h; exact mapE_exc (fun a e => plainDumps_exc L n a e) he
    · split at h
      · cases h
      · rename_i he; cases h; exact mapE_exc (fun a e => plainDumps_exc L n a e) he
    · split at h
      · cases h
      · rename_i he
        cases h
        refine mapE_exc (P := fun e => e = .typeError ∨ e = .other "RecursionError") (fun kv e hk => ?_) he
        split at hk
        · rename_i hj; cases hk; exact .inl (jkey_exc hj)
        · split at hk
          · rename_i hj; cases hk; exact plainDumps_exc L n _ _ hj
          · cases hk
    · split at h <;> cases h
      exact .inl rfl

theorem plainDumps_deep (L : Lib) : ∀ (n : Nat) (v : Val), DeepVal n v → plainDumps L n v = .error (.other "RecursionError")
  | 0, v, _ => by simp [plainDumps]
  | n + 1, v, h => by
    cases h with
    | list h => simp [plainDumps, Val.core, mapE, plainDumps_deep L n _ h]
    | tuple h => simp [plainDumps, Val.core, mapE, plainDumps_deep L n _ h]

theorem mapE_ok_all {α β : Type} {f : α → Except Exc β} : ∀ {l : List α} {m}, mapE f l = .ok m → ∀ a ∈ l, ∃ b, f a = .ok b
  | b :: l, m, h, a, ha => by
    simp only [mapE] at h
    split at h
    · cases h
    · rename_i x hx
      split at h
      · cases h
      · rename_i hl
        rcases List.mem_cons.1 ha with rfl | ha
        · exact ⟨_, hx⟩
        · exact mapE_ok_all hl a ha

theorem plainDumps_entry (L : Lib) (n : Nat) (d : Fields) (k : String) (v : Val) (hm : (k, v) ∈ d) {e : Exc} (h : plainDumps L n v = .error e) :
    ∃ e, plainDumps L (n + 1) (Fields.val d) = .error e := by
  simp only [plainDumps, Fields.val, Val.core]
  split
  · rename_i m hm'
    have := mapE_ok_all hm' (.str k, v) (List.mem_map.2 ⟨(k, v), hm, rfl⟩)
    simp [jkey, Val.core, h] at this
  · exact ⟨_, rfl⟩

theorem plain_list {L : Lib} {n : Nat} (H : ∀ v, PlainN n v → ∃ w, plainDumps L n v = .ok w ∧ plainLoads w = .ok v) :
    ∀ {l : List Val}, (∀ v ∈ l, PlainN n v) → ∃ ws, mapE (plainDumps L n) l = .ok ws ∧ plainLoadsL ws = .ok l
  | [], _ => ⟨[], rfl, rfl⟩
  | v :: l, h => by
    obtain ⟨w, h1, h2⟩ := H v (h v (by simp))
    obtain ⟨ws, h3, h4⟩ := plain_list H (l := l) (fun v hv => h v (by simp [hv]))
    exact ⟨w :: ws, by simp [mapE, h1, h3], by simp [plainLoadsL, h2, h4]⟩

theorem plain_fields {L : Lib} {n : Nat} (H : ∀ v, PlainN n v → ∃ w, plainDumps L n v = .ok w ∧ plainLoads w = .ok v) :
    ∀ {d : Fields}, (∀ k v, (k, v) ∈ d → PlainN n v) → ∃ m, mapE (fun kv : Val × Val => match jkey L kv.1 with
          | .error e => .error e
          | .ok k =>
            match plainDumps L n kv.2 with
            | .error e => .error e
            | .ok w => .ok (Wire.str k, w)) (d.map fun kv => (Val.str kv.1, kv.2)) = .ok m ∧
      plainLoadsM m = .ok (d.map fun kv => (Val.str kv.1, kv.2))
  | [], _ => ⟨[], rfl, rfl⟩
  | (k, v) :: d, h => by
    obtain ⟨w, h1, h2⟩ := H v (h k v (by simp))
    obtain ⟨ws, h3, h4⟩ := plain_fields H (d := d) (fun k v hv => h k v (by simp [hv]))
    refine ⟨(.str k, w) :: ws, ?_, by simp [plainLoadsM, h2, h4]⟩
    simp only [List.map_cons, mapE]
    rw [h3]
    simp [jkey, Val.core, h1]

/-- Plain values survive JSON. -/
theorem plain_roundtrip (L : Lib) : ∀ (n : Nat) (v : Val), PlainN n v → ∃ w, plainDumps L n v = .ok w ∧ plainLoads w = .ok v
  | 0, v, h => by cases h
  | n + 1, v, h => by
    cases h with
    | none => exact ⟨.nil, rfl, rfl⟩
    | bool => exact ⟨.bool _, rfl, rfl⟩
    | int => exact ⟨.int _, rfl, rfl⟩
    | float => exact ⟨.float _, rfl, rfl⟩
    | str => exact ⟨.str _, rfl, rfl⟩
    | list h =>
      obtain ⟨ws, h1, h2⟩ := plain_list (plain_roundtrip L n) h
      exact ⟨.arr ws, by simp [plainDumps, Val.core, h1], by simp [plainLoads, h2]⟩
    | dict hd h =>
      obtain ⟨m, h1, h2⟩ := plain_fields (plain_roundtrip L n) h
      refine ⟨.map m, ?_, ?_⟩
      · simp only [plainDumps, Fields.val, Val.core]
        erw [h1]
      · simp only [plainLoads, h2, Fields.val]
        rw [dictOf_eq (fields_pairwise hd)]

/-! ## Fields -/

theorem update_get : ∀ (d e : Fields), d.WF → ∃ e', updateFields e (d.map fun kv => (Val.str kv.1, kv.2)) = .ok e' ∧
    ∀ k, e'.get? k = match d.get? k with | some v => some v | none => e.get? k
  | [], e, _ => ⟨e, rfl, fun _ => rfl⟩
  | (k, v) :: d, e, h => by
    simp only [Dict.WF, List.map_cons, List.nodup_cons] at h
    obtain ⟨e', h1, h2⟩ := update_get d (e.set k v) h.2
    refine ⟨e', by simpa [updateFields] using h1, fun k' => ?_⟩
    rw [h2 k']
    show (match Dict.get? d k' with | some v => some v | none => _) = match Dict.get? ((k, v) :: d) k' with | some v => some v | none => _
    rw [Dict.get?.eq_def ((k, v) :: d)]
    simp only
    by_cases hk : k = k'
    · subst hk
      have : Dict.get? d k = none := (Dict.get?_eq_none_iff d k).2 h.1
      simp [this]
    · rw [if_neg hk, Dict.get?_set, if_neg hk]

/-- What `_handle` makes of a record. -/
theorem forward_spec {fmt} {N : LogNames} {r d : Fields} (hw : r.WF) (h : forwardFields fmt N r = .ok d) :
    d.WF ∧ (∀ k, k ≠ "args" → k ≠ "msg" → k ≠ "process_name" → k ≠ "thread_name" → k ≠ "host_name" → d.get? k = r.get? k) ∧
    d.get? "args" = none ∧ d.get? "host_name" = some (.str N.host) ∧
    (∀ p, N.process = some p → d.get? "process_name" = some (.str p)) ∧
    (N.process = none → d.get? "process_name" = r.get? "process_name") ∧
    (∃ ident name, r.get? "thread" = some ident ∧ r.get? "threadName" = some name ∧ d.get? "thread_name" = some (N.thread ident name)) ∧
    ∃ args n, r.get? "args" = some args ∧ args.pyLen = .ok n ∧
      ((n = 0 ∧ d.get? "msg" = r.get? "msg") ∨
       (n ≠ 0 ∧ ∃ msg m, r.get? "msg" = some msg ∧ fmt msg args = .ok m ∧ d.get? "msg" = some m)) := by
  unfold forwardFields at h
  cases ha : r.get? "args" with
  | none => rw [ha] at h; cases h
  | some args =>
  rw [ha] at h
  simp only at h
  cases hl : args.pyLen with
  | error e => rw [hl] at h; cases h
  | ok n =>
  rw [hl] at h
  simp only at h
  have hw1 := Dict.wf_erase hw "args"
  -- the message
  have hmsg : ∃ d1 : Fields, d1.WF ∧ (∀ k, k ≠ "msg" → d1.get? k = (r.erase "args").get? k) ∧
      ((n = 0 ∧ d1.get? "msg" = r.get? "msg") ∨ (n ≠ 0 ∧ ∃ msg m, r.get? "msg" = some msg ∧ fmt msg args = .ok m ∧ d1.get? "msg" = some m)) ∧
      (let d := match N.process with | some p => d1.set "process_name" (.str p) | none => d1
        match d.get? "thread" with
        | none => .error .keyError
        | some ident =>
          match d.get? "threadName" with
          | none => .error .keyError
          | some name =>
            let d := d.set "thread_name" (N.thread ident name)
            .ok (d.set "host_name" (.str N.host)) : Except Exc Fields) = .ok d := by
    by_cases hn : n > 0
    · rw [if_pos hn] at h
      have hm : (r.erase "args").get? "msg" = r.get? "msg" := by rw [Dict.get?_erase]; simp
      rw [hm] at h
      cases hmm : r.get? "msg" with
      | none => rw [hmm] at h; cases h
      | some msg =>
        rw [hmm] at h
        simp only at h
        cases hf : fmt msg args with
        | error e => rw [hf] at h; cases h
        | ok m =>
          rw [hf] at h
          refine ⟨(r.erase "args").set "msg" m, Dict.wf_set hw1 _ _, ?_, Or.inr ⟨by omega, msg, m, rfl, hf, by simp⟩, h⟩
          intro k hk
          rw [Dict.get?_set, if_neg (Ne.symm hk)]
    · rw [if_neg hn] at h
      exact ⟨r.erase "args", hw1, fun _ _ => rfl, Or.inl ⟨by omega, by rw [Dict.get?_erase]; simp⟩, h⟩
  obtain ⟨d1, hw2, ho, hmsg, h⟩ := hmsg
  -- the process
  have hproc : ∃ d2 : Fields, d2.WF ∧ (∀ k, k ≠ "process_name" → d2.get? k = d1.get? k) ∧
      (∀ p, N.process = some p → d2.get? "process_name" = some (.str p)) ∧ (N.process = none → d2.get? "process_name" = d1.get? "process_name") ∧
      (match d2.get? "thread" with
        | none => .error .keyError
        | some ident =>
          match d2.get? "threadName" with
          | none => .error .keyError
          | some name =>
            let d := d2.set "thread_name" (N.thread ident name)
            .ok (d.set "host_name" (.str N.host)) : Except Exc Fields) = .ok d := by
    cases hp : N.process with
    | none =>
      rw [hp] at h
      exact ⟨d1, hw2, fun _ _ => rfl, by simp, fun _ => rfl, h⟩
    | some p =>
      rw [hp] at h
      refine ⟨d1.set "process_name" (.str p), Dict.wf_set hw2 _ _, ?_, ?_, by simp, h⟩
      · intro k hk
        rw [Dict.get?_set, if_neg (Ne.symm hk)]
      · intro p' hp'
        simp only [Option.some.injEq] at hp'
        subst hp'; simp
  obtain ⟨d2, hw3, ho2, hp1, hp2, h⟩ := hproc
  have e1 : d2.get? "thread" = r.get? "thread" := by
    rw [ho2 _ (by decide), ho _ (by decide), Dict.get?_erase]; simp
  have e2 : d2.get? "threadName" = r.get? "threadName" := by
    rw [ho2 _ (by decide), ho _ (by decide), Dict.get?_erase]; simp
  rw [e1, e2] at h
  cases ht : r.get? "thread" with
  | none => rw [ht] at h; cases h
  | some ident =>
  cases hn : r.get? "threadName" with
  | none => rw [ht, hn] at h; cases h
  | some name =>
  rw [ht, hn] at h
  simp only [Except.ok.injEq] at h
  subst h
  refine ⟨Dict.wf_set (Dict.wf_set hw3 _ _) _ _, ?_, ?_, by simp, ?_, ?_, ⟨ident, name, rfl, rfl, ?_⟩, args, n, rfl, hl, ?_⟩
  · intro k h1 h2 h3 h4 h5
    rw [Dict.get?_set, if_neg (Ne.symm h5), Dict.get?_set, if_neg (Ne.symm h4), ho2 k h3, ho k h2, Dict.get?_erase, if_neg (Ne.symm h1)]
  · rw [Dict.get?_set, if_neg (by decide), Dict.get?_set, if_neg (by decide), ho2 _ (by decide), ho _ (by decide), Dict.get?_erase, if_pos rfl]
  · intro p hp
    rw [Dict.get?_set, if_neg (by decide), Dict.get?_set, if_neg (by decide), hp1 p hp]
  · intro hp
    rw [Dict.get?_set, if_neg (by decide), Dict.get?_set, if_neg (by decide), hp2 hp, ho _ (by decide), Dict.get?_erase, if_neg (by decide)]
  · rw [Dict.get?_set, if_neg (by decide)]; simp
  · have : (((d2.set "thread_name" (N.thread ident name)).set "host_name" (.str N.host)).get? "msg") = d1.get? "msg" := by
      rw [Dict.get?_set, if_neg (by decide), Dict.get?_set, if_neg (by decide), ho2 _ (by decide)]
    rw [this]
    exact hmsg

/-! ## The sender -/

theorem sender_run_append (L : Lib) (fmt) (s : SenderSt) (a b : List SenderEv) :
    s.run L fmt (a ++ b) = (((s.run L fmt a).1.run L fmt b).1, (s.run L fmt a).2 ++ ((s.run L fmt a).1.run L fmt b).2) := by
  induction a generalizing s with
  | nil => rfl
  | cons e es ih => simp only [List.cons_append, SenderSt.run, ih, List.append_assoc]

theorem sender_run_snoc (L : Lib) (fmt) (s : SenderSt) (es : List SenderEv) (e : SenderEv) :
    s.run L fmt (es ++ [e]) = (((s.run L fmt es).1.step L fmt e).1, (s.run L fmt es).2 ++ ((s.run L fmt es).1.step L fmt e).2) := by
  rw [sender_run_append]; simp [SenderSt.run]

theorem sentOf_append (a b : List SenderOut) : sentOf (a ++ b) = sentOf a ++ sentOf b := List.filterMap_append
theorem handledOf_append (a b : List SenderEv) : handledOf (a ++ b) = handledOf a ++ handledOf b := List.filterMap_append

/-- A connected, undisturbed sender that was given the records `given` and sent `sent`. -/
structure SenderAt (L : Lib) (fmt : Val → Val → Except Exc Val) (a : Bytes) (ns : List LogNames) (given sent : List Fields) (os : List SenderOut) (s : SenderSt) : Prop where
  built : s.built = true
  sock : s.sock = some 0
  closed : s.closed = []
  names : s.names ∈ ns
  addr : s.addrs.get? 0 = some a
  outs : ∀ o ∈ os, (∃ r w, ∃ N ∈ ns, o = .sent a r w ∧ messageFor L fmt N r = .ok w) ∨ (∃ r e, ∃ N ∈ ns, o = .crashed r e ∧ messageFor L fmt N r = .error e)
  alive : (∀ r e, .crashed r e ∉ os) ∨ s.pc = .crashed
  flow : match s.pc with
    | .idle => given.map some = sent.map some ++ s.queue
    | .got r => given.map some = sent.map some ++ some r :: s.queue
    | .checked r => given.map some = sent.map some ++ some r :: s.queue
    | .sending r k w => given.map some = sent.map some ++ some r :: s.queue ∧ k = 0 ∧ ∃ N ∈ ns, messageFor L fmt N r = .ok w
    | .finished => False
    | .crashed => ∃ r e, ∃ N ∈ ns, .crashed r e ∈ os ∧ messageFor L fmt N r = .error e ∧ given.map some = sent.map some ++ some r :: s.queue

theorem sender_step {L : Lib} {fmt} {a : Bytes} {ns given sent os} {s : SenderSt} (e : SenderEv) (hc : Calm [e]) (hn : ∀ N, e = .rename N → N ∈ ns) (h : SenderAt L fmt a ns given sent os s) :
    SenderAt L fmt a ns (given ++ handledOf [e]) (sent ++ sentOf (s.step L fmt e).2) (os ++ (s.step L fmt e).2) (s.step L fmt e).1 := by
  obtain ⟨built, sock, closed, addrs, nsock, queue, pc, names⟩ := s
  obtain ⟨h1, h2, h3, hna, h4, h5, h6, h7⟩ := h
  simp only at h1 h2 h3 hna h4 h6 h7
  subst h1 h2 h3
  cases e with
  | build => exact (hc (.build) (by simp)).elim
  | connectClose => exact (hc (.connectClose) (by simp)).elim
  | connectOpen x => exact (hc (.connectOpen x) (by simp)).elim
  | closePut => exact (hc (.closePut) (by simp)).elim
  | closeSwap => exact (hc (.closeSwap) (by simp)).elim
  | rename N =>
    refine ⟨rfl, rfl, rfl, hn N rfl, h4, ?_, ?_, ?_⟩
    · simpa [SenderSt.step] using h5
    · simpa [SenderSt.step] using h6
    · cases pc <;> simpa [SenderSt.step, handledOf, sentOf] using h7
  | handle r =>
    refine ⟨rfl, rfl, rfl, hna, h4, ?_, ?_, ?_⟩
    · simpa [SenderSt.step] using h5
    · simpa [SenderSt.step] using h6
    · cases pc with
      | idle => simp only [SenderSt.step, handledOf, sentOf] at h7 ⊢; simp [h7]
      | got x => simp only [SenderSt.step, handledOf, sentOf] at h7 ⊢; simp [h7]
      | checked x => simp only [SenderSt.step, handledOf, sentOf] at h7 ⊢; simp [h7]
      | sending x k w => simp only [SenderSt.step, handledOf, sentOf] at h7 ⊢; simpa [h7.1] using h7.2
      | finished => exact h7.elim
      | crashed =>
        simp only [SenderSt.step, handledOf, sentOf] at h7 ⊢
        obtain ⟨r', e', N, hN, a1, a2, a3⟩ := h7
        exact ⟨r', e', N, hN, by simpa using a1, a2, by simp [a3]⟩
  | go =>
    simp only [SenderSt.step, SenderSt.go]
    have hno : pc ≠ .crashed → ∀ r e, SenderOut.crashed r e ∉ os := fun hp => h6.resolve_right hp
    cases pc with
    | idle =>
      cases queue with
      | nil =>
        refine ⟨rfl, rfl, rfl, hna, h4, ?_, ?_, ?_⟩
        · simpa using h5
        · simpa using h6
        · simpa [handledOf, sentOf] using h7
      | cons x q =>
        cases x with
        | none =>
          -- nobody closed the sender
          exfalso
          have : (none : Option Fields) ∈ given.map some := by rw [h7]; simp
          simp at this
        | some r =>
          refine ⟨rfl, rfl, rfl, hna, h4, ?_, ?_, ?_⟩
          · simpa using h5
          · exact Or.inl (by simpa using hno (by simp))
          · simpa [handledOf, sentOf] using h7
    | got r =>
      refine ⟨rfl, rfl, rfl, hna, h4, ?_, ?_, ?_⟩
      · simpa using h5
      · exact Or.inl (by simpa using hno (by simp))
      · simpa [handledOf, sentOf] using h7
    | checked r =>
      have crash : ∀ e, messageFor L fmt names r = .error e →
          SenderAt L fmt a ns (given ++ handledOf [.go]) (sent ++ sentOf [.crashed r e]) (os ++ [.crashed r e])
            { built := true, sock := some 0, closed := [], addrs := addrs, nsock := nsock, queue := queue, pc := .crashed, names := names } := by
        intro e he
        refine ⟨rfl, rfl, rfl, hna, h4, ?_, Or.inr rfl, ?_⟩
        · intro o ho
          rcases List.mem_append.1 ho with ho | ho
          · exact h5 o ho
          · simp only [List.mem_singleton] at ho; subst ho
            exact Or.inr ⟨r, e, names, hna, rfl, he⟩
        · exact ⟨r, e, names, hna, by simp, he, by simpa [handledOf, sentOf] using h7⟩
      simp only [if_neg (show ¬ (true = false) by simp)]
      cases hf : forwardFields fmt names r with
      | error e => exact crash e (by simp [messageFor, hf])
      | ok d =>
        simp only
        cases hd : plainDumps L jsonDepth (Fields.val d) with
        | error e => exact crash e (by simp [messageFor, hf, hd])
        | ok w =>
          refine ⟨rfl, rfl, rfl, hna, h4, ?_, ?_, ?_⟩
          · simpa using h5
          · exact Or.inl (by simpa using hno (by simp))
          · refine ⟨by simpa [handledOf, sentOf] using h7, rfl, names, hna, by simp [messageFor, hf, hd]⟩
    | sending r k w =>
      obtain ⟨h8, rfl, N, hN, h9⟩ := h7
      simp only [if_neg (show ¬ (true = false) by simp), if_neg (show ¬ (0 ∈ ([] : List Nat)) by simp), h4]
      refine ⟨rfl, rfl, rfl, hna, h4, ?_, ?_, ?_⟩
      · intro o ho
        rcases List.mem_append.1 ho with ho | ho
        · exact h5 o ho
        · simp only [List.mem_singleton] at ho; subst ho
          exact Or.inl ⟨r, w, N, hN, rfl, h9⟩
      · refine Or.inl fun r' e' hm => ?_
        rcases List.mem_append.1 hm with hm | hm
        · exact hno (by simp) r' e' hm
        · simp at hm
      · simpa [handledOf, sentOf] using h8
    | finished => exact h7.elim
    | crashed =>
      refine ⟨rfl, rfl, rfl, hna, h4, ?_, Or.inr rfl, ?_⟩
      · simpa using h5
      · obtain ⟨r', e', N, hN, a1, a2, a3⟩ := h7
        exact ⟨r', e', N, hN, by simpa using a1, a2, by simpa [handledOf, sentOf] using a3⟩

theorem sender_run' (L : Lib) (fmt) (N : LogNames) (a : Bytes) (ns : List LogNames) (es : List SenderEv) (hc : Calm es) (hn : ∀ M ∈ namesOf N es, M ∈ ns) :
    SenderAt L fmt a ns (handledOf es) (sentOf ((SenderSt.init N a).run L fmt es).2) ((SenderSt.init N a).run L fmt es).2 ((SenderSt.init N a).run L fmt es).1 := by
  induction es using snoc_induction with
  | h0 => exact ⟨rfl, rfl, rfl, hn N (by simp [namesOf]), rfl, by simp [SenderSt.run], Or.inl (by simp [SenderSt.run]), by simp [SenderSt.run, SenderSt.init, handledOf, sentOf]⟩
  | hs es e ih =>
    rw [sender_run_snoc, handledOf_append, sentOf_append]
    refine sender_step e (fun x hx => hc x (by simp at hx; simp [hx])) ?_ (ih (fun x hx => hc x (by simp [hx])) ?_)
    · rintro M rfl
      exact hn M (by simp [namesOf])
    · intro M hM
      refine hn M ?_
      simp only [namesOf, List.filterMap_append, List.mem_cons, List.mem_append] at hM ⊢
      rcases hM with h | h
      · exact Or.inl h
      · exact Or.inr (Or.inl h)

theorem sender_run (L : Lib) (fmt) (N : LogNames) (a : Bytes) (es : List SenderEv) (hc : Calm es) :
    SenderAt L fmt a (namesOf N es) (handledOf es) (sentOf ((SenderSt.init N a).run L fmt es).2) ((SenderSt.init N a).run L fmt es).2
      ((SenderSt.init N a).run L fmt es).1 := sender_run' L fmt N a _ es hc fun _ h => h

/-! ## The server -/

theorem logsrv_run_append (lt) (s : LogSrvSt) (a b : List LogSrvEv) :
    s.run lt (a ++ b) = (((s.run lt a).1.run lt b).1, (s.run lt a).2 ++ ((s.run lt a).1.run lt b).2) := by
  induction a generalizing s with
  | nil => rfl
  | cons e es ih => simp only [List.cons_append, LogSrvSt.run, ih, List.append_assoc]

theorem logsrv_run_snoc (lt) (s : LogSrvSt) (es : List LogSrvEv) (e : LogSrvEv) :
    s.run lt (es ++ [e]) = (((s.run lt es).1.step lt e).1, (s.run lt es).2 ++ ((s.run lt es).1.step lt e).2) := by
  rw [logsrv_run_append]; simp [LogSrvSt.run]

theorem readsOf_append (a b : List LogSrvOut) : readsOf (a ++ b) = readsOf a ++ readsOf b := List.filterMap_append
theorem passedOf_append (a b : List LogSrvOut) : passedOf (a ++ b) = passedOf a ++ passedOf b := List.filterMap_append
theorem arrivedOf_append (a b : List LogSrvEv) : arrivedOf (a ++ b) = arrivedOf a ++ arrivedOf b := List.filterMap_append

/-- The records a server passes on among those it reads. -/
def passes (lt : Nat → Int → Bool) (filter : Bool) (rl : Fields × Int) : Bool :=
  !filter || (match levelBelow lt rl.1 rl.2 with | .ok b => !b | .error _ => false)

structure LogSrvAt (lt : Nat → Int → Bool) (flt : Bool) (arrived : List (Option Wire)) (os : List LogSrvOut) (s : LogSrvSt) : Prop where
  same : s.filter = flt
  passed : passedOf os = ((readsOf os).filter (passes lt flt)).map (·.1)
  order : ∃ k : List (Option Wire), arrived = k ++ s.inbox ∧
    ((∀ e, .crashed e ∉ os) → k.map readRecord = (readsOf os).map fun rl => .ok rl.1) ∧
    (∀ e, .crashed e ∈ os → s.alive = false ∧ ∃ k' m, k = k' ++ [m] ∧ k'.map readRecord = (readsOf os).map fun rl => .ok rl.1)

theorem logsrv_step {lt} {filter arrived os} {s : LogSrvSt} (e : LogSrvEv) (h : LogSrvAt lt filter arrived os s) :
    LogSrvAt lt filter (arrived ++ arrivedOf [e]) (os ++ (s.step lt e).2) (s.step lt e).1 := by
  obtain ⟨h1, h2, k, h3, h4, h5⟩ := h
  cases e with
  | arrive m =>
    refine ⟨h1, by simpa [LogSrvSt.step] using h2, k, ?_, by simpa [LogSrvSt.step] using h4, by simpa [LogSrvSt.step] using h5⟩
    simp [LogSrvSt.step, arrivedOf, h3]
  | setLevels l =>
    exact ⟨h1, by simpa [LogSrvSt.step] using h2, k, by simpa [LogSrvSt.step, arrivedOf] using h3, by simpa [LogSrvSt.step] using h4, by simpa [LogSrvSt.step] using h5⟩
  | stop =>
    exact ⟨h1, by simpa [LogSrvSt.step] using h2, k, by simpa [LogSrvSt.step, arrivedOf] using h3, by simpa [LogSrvSt.step] using h4, by simpa [LogSrvSt.step] using h5⟩
  | go =>
    obtain ⟨f, levels, inbox, running, alive⟩ := s
    simp only at h1 h3 h5
    subst h1
    simp only [LogSrvSt.step, LogSrvSt.go]
    cases alive with
    | false =>
      simp only [if_pos]
      exact ⟨rfl, by simpa using h2, k, by simpa [arrivedOf] using h3, by simpa using h4, by simpa using h5⟩
    | true =>
      have hno : ∀ e, LogSrvOut.crashed e ∉ os := fun e he => by have := (h5 e he).1; simp at this
      simp only [if_neg (show ¬ (true = false) by simp)]
      cases running with
      | false =>
        simp only [if_pos]
        refine ⟨rfl, by simpa [passedOf_append, readsOf_append, passedOf, readsOf] using h2, k, by simpa [arrivedOf] using h3, ?_, ?_⟩
        · intro _
          simpa [readsOf_append, readsOf] using h4 hno
        · intro e he
          simp at he; exact absurd he (hno e)
      | true =>
        simp only [if_neg (show ¬ (true = false) by simp)]
        cases inbox with
        | nil =>
          exact ⟨rfl, by simpa using h2, k, by simpa [arrivedOf] using h3, by simpa using h4, by simpa using h5⟩
        | cons m r =>
          simp only
          have hk : arrived ++ arrivedOf [.go] = (k ++ [m]) ++ r := by simp [arrivedOf, h3]
          have crash : ∀ e, LogSrvAt lt f (arrived ++ arrivedOf [.go]) (os ++ [.crashed e])
              { filter := f, levels := levels, inbox := r, running := true, alive := false } := by
            intro e
            refine ⟨rfl, by simpa [passedOf_append, readsOf_append, passedOf, readsOf] using h2, k ++ [m], hk, ?_, ?_⟩
            · intro hh; exact absurd (by simp) (hh e)
            · intro e' he'
              exact ⟨rfl, k, m, rfl, by simpa [readsOf_append, readsOf] using h4 hno⟩
          cases hr : readRecord m with
          | error e => exact crash e
          | ok d =>
            have good : ∀ o, (o = [] ∨ o = [LogSrvOut.handled d]) → (o = [.handled d] ↔ passes lt f (d, effectiveLevel levels) = true) →
                LogSrvAt lt f (arrived ++ arrivedOf [.go]) (os ++ .read d (effectiveLevel levels) :: o)
                { filter := f, levels := levels, inbox := r, running := true, alive := true } := by
              intro o ho hp
              have hro : readsOf (.read d (effectiveLevel levels) :: o) = [(d, effectiveLevel levels)] := by
                rcases ho with rfl | rfl <;> rfl
              refine ⟨rfl, ?_, k ++ [m], hk, ?_, ?_⟩
              · rw [passedOf_append, readsOf_append, hro, List.filter_append, List.map_append, h2]
                congr 1
                rcases ho with rfl | rfl
                · have : passes lt f (d, effectiveLevel levels) = false := by
                    cases hpp : passes lt f (d, effectiveLevel levels) with
                    | false => rfl
                    | true => have := hp.2 hpp; simp at this
                  simp [this, passedOf]
                · simp [hp.1 rfl, passedOf]
              · intro _
                rw [readsOf_append, hro, List.map_append, List.map_append, h4 hno]
                simp [hr]
              · intro e he
                rcases List.mem_append.1 he with he | he
                · exact absurd he (hno e)
                · rcases ho with rfl | rfl <;> simp at he
            simp only
            cases f with
            | false =>
              exact good _ (Or.inr rfl) (by simp [passes])
            | true =>
              simp only [if_true]
              cases hb : levelBelow lt d (effectiveLevel levels) with
              | error e => exact crash e
              | ok b =>
                cases b with
                | true => exact good [] (Or.inl rfl) (by simp [passes, hb])
                | false => exact good _ (Or.inr rfl) (by simp [passes, hb])

theorem logsrv_run (lt) (filter : Bool) (levels : List Int) (es : List LogSrvEv) :
    LogSrvAt lt filter (arrivedOf es) (LogSrvSt.run lt { filter, levels } es).2 (LogSrvSt.run lt { filter, levels } es).1 := by
  induction es using snoc_induction with
  | h0 => exact ⟨rfl, rfl, [], rfl, fun _ => rfl, by simp [LogSrvSt.run]⟩
  | hs es e ih => rw [logsrv_run_snoc, arrivedOf_append]; exact logsrv_step e ih

end Verif
