import Verif.Proof.LogRemote
import Verif.Props.LogHandler
import Verif.Props.SerializerExample
/-!
# C55, C56, C73–C76: log forwarding
-/
namespace Verif

/-! ## C75: what arrives -/

theorem dict_mem_val {d : Fields} (h : d.WF) {k : String} {v : Val} (hm : (k, v) ∈ d) : d.get? k = some v := Dict.get?_of_mem h hm

/-- A plain record can be formatted and sent. -/
theorem forward_plain {fmt} {r : Fields} (h : PlainRecord fmt r) (N : LogNames) : ∃ d, forwardFields fmt N r = .ok d := by
  obtain ⟨hw, hv, ⟨ident, ht⟩, ⟨name, htn⟩, args, n, ha, hl, hf⟩ := h
  unfold forwardFields
  simp only [ha, hl]
  have fin : ∀ d1 : Fields, (∀ k, k ≠ "msg" → k ≠ "args" → d1.get? k = r.get? k) → ∃ d,
      (let d := match N.process with | some p => d1.set "process_name" (.str p) | none => d1
        match d.get? "thread" with
        | none => .error .keyError
        | some ident =>
          match d.get? "threadName" with
          | none => .error .keyError
          | some name =>
            let d := d.set "thread_name" (N.thread ident name)
            .ok (d.set "host_name" (.str N.host)) : Except Exc Fields) = .ok d := by
    intro d1 h1
    have e1 : (match N.process with | some p => d1.set "process_name" (.str p) | none => d1 : Fields).get? "thread" = some ident := by
      cases N.process with
      | none => rw [h1 _ (by decide) (by decide), ht]
      | some p => simp only; rw [Dict.get?_set, if_neg (by decide), h1 _ (by decide) (by decide), ht]
    have e2 : (match N.process with | some p => d1.set "process_name" (.str p) | none => d1 : Fields).get? "threadName" = some name := by
      cases N.process with
      | none => rw [h1 _ (by decide) (by decide), htn]
      | some p => simp only; rw [Dict.get?_set, if_neg (by decide), h1 _ (by decide) (by decide), htn]
    simp only [e1, e2]
    exact ⟨_, rfl⟩
  by_cases hn : n > 0
  · obtain ⟨msg, s, h1, h2⟩ := hf (by omega)
    have hm : (r.erase "args").get? "msg" = some msg := by rw [Dict.get?_erase, if_neg (by decide), h1]
    simp only [if_pos hn, hm, h2]
    refine fin _ fun k hk hk2 => ?_
    rw [Dict.get?_set, if_neg (Ne.symm hk), Dict.get?_erase, if_neg (Ne.symm hk2)]
  · simp only [if_neg hn]
    refine fin _ fun k hk hk2 => ?_
    rw [Dict.get?_erase, if_neg (Ne.symm hk2)]

/-- The fields sent are plain. -/
theorem forward_plainN {fmt} {N : LogNames} {r d0 : Fields} (h : PlainRecord fmt r) (h0 : forwardFields fmt N r = .ok d0) (k : String) (v : Val)
    (hg : d0.get? k = some v) : PlainN 999 v := by
  obtain ⟨hw, ho, ha, hh, hp, hp', ⟨ident, name, ht1, ht2, ht3⟩, args, n, ha1, ha2, ha3⟩ := forward_spec h.wf h0
  by_cases e1 : k = "args"
  · subst e1; rw [ha] at hg; cases hg
  by_cases e5 : k = "host_name"
  · subst e5; rw [hh] at hg; cases hg; exact .str
  by_cases e4 : k = "thread_name"
  · subst e4; rw [ht3] at hg; cases hg
    unfold LogNames.thread
    split
    · split
      · exact .str
      · exact h.values _ _ ht2 (by decide)
    · exact h.values _ _ ht2 (by decide)
  by_cases e3 : k = "process_name"
  · subst e3
    cases hpr : N.process with
    | none => rw [hp' hpr] at hg; exact h.values _ _ hg (by decide)
    | some p => rw [hp p hpr] at hg; cases hg; exact .str
  by_cases e2 : k = "msg"
  · subst e2
    rcases ha3 with ⟨_, hm⟩ | ⟨hn, msg, m, h1, h2, h3⟩
    · rw [hm] at hg; exact h.values _ _ hg (by decide)
    · obtain ⟨args', n', g1, g2, g3⟩ := h.fits
      rw [ha1] at g1; cases g1
      rw [ha2] at g2; cases g2
      obtain ⟨msg', s, g4, g5⟩ := g3 hn
      rw [h1] at g4; cases g4
      rw [h2] at g5; cases g5
      rw [h3] at hg; cases hg
      exact .str
  rw [ho k e1 e2 e3 e4 e5] at hg
  exact h.values k v hg e1

/-- **C75** Every plain record can be sent whatever the names of the process are, and what the server makes of the message is the record with its
message formatted and the names added. -/
theorem C75_record (L : Lib) (fmt) (N : LogNames) (r : Fields) (h : PlainRecord fmt r) :
    ∃ w d, messageFor L fmt N r = .ok w ∧ readRecord (some w) = .ok d ∧ Arrived fmt N r d := by
  obtain ⟨d0, h0⟩ := forward_plain h N
  obtain ⟨hw, ho, ha, hh, hp, hp', ⟨ident, name, ht1, ht2, ht3⟩, args, n, ha1, ha2, ha3⟩ := forward_spec h.wf h0
  have hplain : PlainN 1000 (Fields.val d0) := .dict hw fun k v hm => forward_plainN h h0 k v (dict_mem_val hw hm)
  obtain ⟨w, hw1, hw2⟩ := plain_roundtrip L 1000 _ hplain
  obtain ⟨d, hd1, hd2⟩ := update_get d0 defaultRecord hw
  have hsome : ∀ k v, d0.get? k = some v → d.get? k = some v := fun k v hk => by rw [hd2 k, hk]
  refine ⟨w, d, ?_, ?_, ?_, ?_, ?_, ?_, hsome _ _ hh, fun p hpp => hsome _ _ (hp p hpp), ?_, ?_⟩
  · simp only [messageFor, h0]; exact hw1
  · simp only [readRecord, hw2, Fields.val]; exact hd1
  · intro k v e1 e2 e3 e4 e5 hk
    exact hsome k v (by rw [ho k e1 e2 e3 e4 e5, hk])
  · rw [hd2, ha]; rfl
  · intro v h1 h2
    rw [ha1] at h1; cases h1
    rcases ha3 with ⟨_, hm⟩ | ⟨hn, _⟩
    · exact hsome _ _ (by rw [hm, h2])
    · simp [Val.pyLen, Val.core] at ha2; omega
  · intro args' n' msg m g1 g2 g3 g4
    rw [ha1] at g1; cases g1
    rw [ha2] at g2
    rcases ha3 with ⟨h1, _⟩ | ⟨_, msg', m', h1, h2, h3⟩
    · subst h1; cases g2
    · rw [g3] at h1; cases h1
      rw [g4] at h2; cases h2
      exact hsome _ _ h3
  · intro i t g1 g2
    rw [ht1] at g1; cases g1
    refine hsome _ _ ?_
    rw [ht3]; simp [LogNames.thread, g2]
  · intro i v g1 g2 g3
    rw [ht1] at g1; cases g1
    rw [ht2] at g3; cases g3
    refine hsome _ _ ?_
    rw [ht3]; simp [LogNames.thread, g2]

/-! ## C56: the sender -/

/-- **C75** Which messages are formatted: with no arguments the message stays as it is; with arguments (a tuple, list, dict, text or bytes that is not empty, or an instance of a
subclass of these) it is the formatted one; anything else as arguments makes `_handle` raise TypeError. -/
theorem C75_args (fmt) (N : LogNames) (r : Fields) (args msg ident name : Val) (ha : r.get? "args" = some args) (hm : r.get? "msg" = some msg)
    (ht : r.get? "thread" = some ident) (hn : r.get? "threadName" = some name) :
    (args.core = .tuple [] ∨ args.core = .list [] ∨ args.core = .dict [] ∨ args.core = .str "" ∨ args.core = .bytes [] →
      ∃ d, forwardFields fmt N r = .ok d ∧ d.get? "msg" = some msg) ∧
    ((∃ a l, args.core = .tuple (a :: l)) ∨ (∃ a l, args.core = .list (a :: l)) ∨ (∃ a l, args.core = .dict (a :: l)) ∨ (∃ s, s ≠ "" ∧ args.core = .str s) ∨
        (∃ a l, args.core = .bytes (a :: l)) →
      (∀ m, fmt msg args = .ok m → ∃ d, forwardFields fmt N r = .ok d ∧ d.get? "msg" = some m) ∧ ∀ e, fmt msg args = .error e → forwardFields fmt N r = .error e) ∧
    (args.core = .none ∨ (∃ b, args.core = .bool b) ∨ (∃ i, args.core = .int i) ∨ (∃ f, args.core = .float f) → forwardFields fmt N r = .error .typeError) := by
  have e1 : (r.erase "args").get? "msg" = some msg := by rw [Dict.get?_erase]; simp [hm]
  have e2 : (r.erase "args").get? "thread" = some ident := by rw [Dict.get?_erase]; simp [ht]
  have e3 : (r.erase "args").get? "threadName" = some name := by rw [Dict.get?_erase]; simp [hn]
  refine ⟨fun h => ?_, fun h => ⟨fun m hf => ?_, fun e hf => ?_⟩, fun h => ?_⟩
  · have hl : args.pyLen = .ok 0 := by unfold Val.pyLen; rcases h with h | h | h | h | h <;> rw [h] <;> rfl
    simp only [forwardFields, ha, hl, Nat.lt_irrefl, gt_iff_lt, if_false]
    cases N.process <;> simp [e2, e3, e1, Dict.get?_set]
  · have hl : ∃ n, args.pyLen = .ok (n + 1) := by
      unfold Val.pyLen
      rcases h with ⟨a, l, h⟩ | ⟨a, l, h⟩ | ⟨a, l, h⟩ | ⟨s, hs, h⟩ | ⟨a, l, h⟩ <;> rw [h]
      · exact ⟨_, rfl⟩
      · exact ⟨_, rfl⟩
      · exact ⟨_, rfl⟩
      · refine ⟨s.length - 1, ?_⟩
        have : s.length ≠ 0 := fun h0 => hs (by simpa using h0)
        simp only []
        congr 1; omega
      · exact ⟨_, rfl⟩
    obtain ⟨n, hl⟩ := hl
    simp only [forwardFields, ha, hl, gt_iff_lt, Nat.succ_pos, if_true, e1, hf]
    cases N.process <;> simp [e2, e3, Dict.get?_set]
  · have hl : ∃ n, args.pyLen = .ok (n + 1) := by
      unfold Val.pyLen
      rcases h with ⟨a, l, h⟩ | ⟨a, l, h⟩ | ⟨a, l, h⟩ | ⟨s, hs, h⟩ | ⟨a, l, h⟩ <;> rw [h]
      · exact ⟨_, rfl⟩
      · exact ⟨_, rfl⟩
      · exact ⟨_, rfl⟩
      · refine ⟨s.length - 1, ?_⟩
        have : s.length ≠ 0 := fun h0 => hs (by simpa using h0)
        simp only []
        congr 1; omega
      · exact ⟨_, rfl⟩
    obtain ⟨n, hl⟩ := hl
    simp only [forwardFields, ha, hl, gt_iff_lt, Nat.succ_pos, if_true, e1, hf]
  · have hl : args.pyLen = .error .typeError := by
      unfold Val.pyLen
      rcases h with h | ⟨b, h⟩ | ⟨b, h⟩ | ⟨b, h⟩ <;> rw [h]
    simp only [forwardFields, ha, hl]

/-- C75: a record whose only argument is a dict (an instance of a subclass of dict). -/
example : ∃ r : Fields, r.get? "args" = some (.sub 7 (.dict [(.str "x", .int 1)])) ∧ r.get? "msg" = some (.str "%(x)d") ∧ r.get? "thread" = some (.int 1) ∧
    r.get? "threadName" = some (.str "main") :=
  ⟨[("args", .sub 7 (.dict [(.str "x", .int 1)])), ("msg", .str "%(x)d"), ("thread", .int 1), ("threadName", .str "main")], rfl, rfl, rfl, rfl⟩

/-- **C56** The constructor with an address gives the sender these theorems are about. -/
theorem C56_constructed (L : Lib) (fmt) (N : LogNames) (a : Bytes) :
    SenderSt.run L fmt { built := false, names := N } [.build, .connectOpen (some a)] = (SenderSt.init N a, []) := rfl

/-- **C74 fails** during the construction: the handler is attached to its logger before it has a queue, so that a record logged by another thread in between
raises AttributeError there; a record the thread takes before the sender is connected is dropped. -/
theorem C74_fails_early (L : Lib) (fmt) (N : LogNames) (r : Fields) (a : Bytes) :
    (SenderSt.run L fmt { built := false, names := N } [.handle r, .build, .connectOpen (some a)]) = (SenderSt.init N a, [.raised .attributeError]) ∧
    (SenderSt.run L fmt { built := false, names := N } [.build, .handle r, .go, .go, .connectOpen (some a)]) = (SenderSt.init N a, [.dropped r]) := ⟨rfl, rfl⟩

/-- **C56** What an undisturbed sender has sent is a prefix of what was logged: in order, nothing twice, nothing left out in between; everything went
to its server, as the message for the names the process had at some time in the history. -/
theorem C56_order (L : Lib) (fmt) (N : LogNames) (a : Bytes) (es : List SenderEv) (hc : Calm es) :
    sentOf ((SenderSt.init N a).run L fmt es).2 <+: handledOf es ∧
    ∀ o ∈ ((SenderSt.init N a).run L fmt es).2,
      (∃ r w, ∃ M ∈ namesOf N es, o = .sent a r w ∧ messageFor L fmt M r = .ok w) ∨
      (∃ r e, ∃ M ∈ namesOf N es, o = .crashed r e ∧ messageFor L fmt M r = .error e) := by
  have h := sender_run L fmt N a es hc
  refine ⟨?_, h.outs⟩
  have hpre : ∀ (x y : List Fields) (z : List (Option Fields)), x.map some = y.map some ++ z → y <+: x := by
    intro x y
    induction y generalizing x with
    | nil => intro z _; exact ⟨x, rfl⟩
    | cons b y ih =>
      intro z hz
      cases x with
      | nil => simp at hz
      | cons c x =>
        simp only [List.map_cons, List.cons_append, List.cons.injEq, Option.some.injEq] at hz
        obtain ⟨t, ht⟩ := ih x z hz.2
        exact ⟨t, by rw [List.cons_append, ht, hz.1]⟩
  have hf := h.flow
  revert hf
  cases ((SenderSt.init N a).run L fmt es).1.pc <;> intro hf
  · exact hpre _ _ _ hf
  · exact hpre _ _ _ hf
  · exact hpre _ _ _ hf
  · exact hpre _ _ _ hf.1
  · exact hf.elim
  · obtain ⟨r, e, M, _, _, _, hf⟩ := hf
    exact hpre _ _ _ hf

/-- **C56** If the thread of an undisturbed sender has died, then at a record that could not be formatted or serialized with names the process had; that
record is the one logged right behind those sent. -/
theorem C56_stop (L : Lib) (fmt) (N : LogNames) (a : Bytes) (es : List SenderEv) (hc : Calm es) (r : Fields) (e : Exc)
    (h : .crashed r e ∈ ((SenderSt.init N a).run L fmt es).2) :
    ∃ r' M e', M ∈ namesOf N es ∧ messageFor L fmt M r' = .error e' ∧ sentOf ((SenderSt.init N a).run L fmt es).2 ++ [r'] <+: handledOf es := by
  have h1 := sender_run L fmt N a es hc
  have hcr : ((SenderSt.init N a).run L fmt es).1.pc = .crashed := h1.alive.resolve_left (fun hh => hh r e h)
  have hf := h1.flow
  rw [hcr] at hf
  obtain ⟨r', e', M, hM, _, h2, h3⟩ := hf
  refine ⟨r', M, e', hM, h2, ?_⟩
  have h3 : (handledOf es).map some = (sentOf ((SenderSt.init N a).run L fmt es).2 ++ [r']).map some ++ ((SenderSt.init N a).run L fmt es).1.queue := by
    rw [h3]; simp
  generalize sentOf ((SenderSt.init N a).run L fmt es).2 ++ [r'] = y at h3 ⊢
  generalize ((SenderSt.init N a).run L fmt es).1.queue = z at h3
  generalize handledOf es = x at h3 ⊢
  induction y generalizing x with
  | nil => exact ⟨x, rfl⟩
  | cons b y ih =>
    cases x with
    | nil => simp at h3
    | cons c x =>
      simp only [List.map_cons, List.cons_append, List.cons.injEq, Option.some.injEq] at h3
      obtain ⟨t, ht⟩ := ih x h3.2
      exact ⟨t, by rw [List.cons_append, ht, h3.1]⟩

/-- How much the thread still has to do. -/
def SenderSt.work (s : SenderSt) : Nat :=
  4 * s.queue.length + match s.pc with | .got _ => 3 | .checked _ => 2 | .sending _ _ _ => 1 | _ => 0

theorem sender_go_work {L : Lib} {fmt} {a ns given sent os} {s : SenderSt} (h : SenderAt L fmt a ns given sent os s) (hg : ∀ r ∈ given, Forwardable L fmt r)
    (hw : s.work ≠ 0) : (s.step L fmt .go).1.work < s.work := by
  obtain ⟨built, sock, closed, addrs, nsock, queue, pc, names⟩ := s
  obtain ⟨h1, h2, h3, hna, h4, h5, h6, h7⟩ := h
  simp only at h1 h2 h3 h4 h6 h7
  subst h1 h2 h3
  have hin : ∀ r q, given.map some = sent.map some ++ some r :: q → Forwardable L fmt r := by
    intro r q hq
    have : some r ∈ given.map some := by rw [hq]; simp
    simp only [List.mem_map, Option.some.injEq] at this
    obtain ⟨r', hr', rfl⟩ := this
    exact hg r' hr'
  cases pc with
  | idle =>
    cases queue with
    | nil => simp [SenderSt.work] at hw
    | cons x q =>
      cases x with
      | none =>
        exfalso
        have : (none : Option Fields) ∈ given.map some := by rw [h7]; simp
        simp at this
      | some r => simp [SenderSt.step, SenderSt.go, SenderSt.work]; omega
  | got r => simp [SenderSt.step, SenderSt.go, SenderSt.work]
  | checked r =>
    obtain ⟨w, hw'⟩ := hin _ _ h7 names
    unfold messageFor at hw'
    cases hf : forwardFields fmt names r with
    | error e => rw [hf] at hw'; cases hw'
    | ok d =>
      rw [hf] at hw'
      simp only at hw'
      simp [SenderSt.step, SenderSt.go, SenderSt.work, hf, hw']
  | sending r k w =>
    obtain ⟨_, rfl, _⟩ := h7
    simp [SenderSt.step, SenderSt.go, SenderSt.work, h4]
  | finished => exact h7.elim
  | crashed =>
    exfalso
    obtain ⟨r, e, N, hN, _, h9, h10⟩ := h7
    obtain ⟨w, hw'⟩ := hin _ _ h10 N
    rw [h9] at hw'; cases hw'

/-- **C56** If every record logged can be forwarded, an undisturbed sender transmits them all, in order: its thread only has to go on. -/
theorem C56_all (L : Lib) (fmt) (N : LogNames) (a : Bytes) (es : List SenderEv) (hc : Calm es) (hg : ∀ r ∈ handledOf es, Forwardable L fmt r) :
    ∃ n, sentOf ((SenderSt.init N a).run L fmt (es ++ List.replicate n .go)).2 = handledOf es := by
  have key : ∀ n (es : List SenderEv), Calm es → (∀ r ∈ handledOf es, Forwardable L fmt r) → ((SenderSt.init N a).run L fmt es).1.work ≤ n →
      ∃ n, sentOf ((SenderSt.init N a).run L fmt (es ++ List.replicate n .go)).2 = handledOf es := by
    intro n
    induction n with
    | zero =>
      intro es hc hg hw
      refine ⟨0, ?_⟩
      have h := sender_run L fmt N a es hc
      rw [List.replicate_zero, List.append_nil]
      have h0 : ((SenderSt.init N a).run L fmt es).1.work = 0 := by omega
      have hf := h.flow
      unfold SenderSt.work at h0
      have hq : ((SenderSt.init N a).run L fmt es).1.queue = [] := List.length_eq_zero_iff.1 (by omega)
      revert hf h0
      cases ((SenderSt.init N a).run L fmt es).1.pc <;> intro h0 hf
      · simp only [hq, List.append_nil] at hf
        exact ((List.map_inj_right (fun _ _ h => Option.some.inj h)).1 hf).symm
      · simp at h0
      · simp at h0
      · simp at h0
      · exact hf.elim
      · obtain ⟨r, e, M, hM, _, h9, h10⟩ := hf
        have : some r ∈ (handledOf es).map some := by rw [h10]; simp
        simp only [List.mem_map, Option.some.injEq] at this
        obtain ⟨r', hr', rfl⟩ := this
        obtain ⟨w, hw'⟩ := hg r' hr' M
        rw [h9] at hw'; cases hw'
    | succ n ih =>
      intro es hc hg hw
      by_cases h0 : ((SenderSt.init N a).run L fmt es).1.work = 0
      · exact ih es hc hg (by omega)
      · have h := sender_go_work (sender_run L fmt N a es hc) hg h0
        have hh : handledOf (es ++ [.go]) = handledOf es := by simp [handledOf]
        obtain ⟨m, hm⟩ := ih (es ++ [.go]) (by
          intro x hx
          rcases List.mem_append.1 hx with hx | hx
          · exact hc x hx
          · simp only [List.mem_singleton] at hx; subst hx; trivial) (by rw [hh]; exact hg) (by rw [sender_run_snoc]; show SenderSt.work (SenderSt.step L fmt _ _).1 ≤ n; omega)
        refine ⟨m + 1, ?_⟩
        rw [hh] at hm
        rw [← hm, List.replicate_succ, List.append_assoc]
        rfl
  exact key _ es hc hg (Nat.le_refl _)

/-! ## C55: the server -/

/-- **C55** What a server passes to its logger are, in the order they were read, exactly the records read whose level is not below the level the logger
had then (all of them, if it does not filter). -/
theorem C55_filter (lt) (filter : Bool) (levels : List Int) (es : List LogSrvEv) :
    passedOf (LogSrvSt.run lt { filter, levels } es).2 =
      ((readsOf (LogSrvSt.run lt { filter, levels } es).2).filter fun rl => !filter || decide (levelBelow lt rl.1 rl.2 = .ok false)).map (·.1) := by
  rw [(logsrv_run lt filter levels es).passed]
  congr 1
  apply List.filter_congr
  intro x _
  unfold passes
  cases levelBelow lt x.1 x.2 with
  | error e => simp
  | ok b => cases b <;> simp

/-- Levels that are ints are compared as ints. -/
theorem C55_level (lt) (r : Fields) (i n : Int) (h : r.get? "levelno" = some (.int i)) : levelBelow lt r n = .ok false ↔ n ≤ i := by
  simp [levelBelow, h]

/-- **C55** Bools count as 0 and 1; levels that are no numbers, and missing ones, cannot be compared: TypeError. -/
theorem C55_level_other (lt) (r : Fields) (n : Int) :
    (∀ b : Bool, r.get? "levelno" = some (.bool b) → (levelBelow lt r n = .ok false ↔ n ≤ b.toNat)) ∧
    ((∀ v, r.get? "levelno" = some v → ¬ (∃ i, v = .int i) ∧ ¬ (∃ b, v = .bool b) ∧ ¬ ∃ f, v = .float f) → levelBelow lt r n = .error .typeError) := by
  refine ⟨fun b hb => ?_, fun h => ?_⟩
  · cases b <;> simp [levelBelow, hb]
  · unfold levelBelow
    split
    · rename_i i hi; exact absurd ⟨_, rfl⟩ (h _ hi).1
    · rename_i i hi; exact absurd ⟨_, rfl⟩ (h _ hi).2.1
    · rename_i i hi; exact absurd ⟨_, rfl⟩ (h _ hi).2.2
    · rfl

/-- **C55** The level of a logger is the first one in the chain of its parents that is set; if none is set it is 0. -/
theorem C55_effective (z : List Int) (hz : ∀ x ∈ z, x = 0) : effectiveLevel z = 0 ∧ ∀ l r, l ≠ 0 → effectiveLevel (z ++ l :: r) = l := by
  induction z with
  | nil => exact ⟨rfl, fun l r h => by simp [effectiveLevel, h]⟩
  | cons x z ih =>
    obtain ⟨h1, h2⟩ := ih fun y hy => hz y (by simp [hy])
    have hx := hz x (by simp)
    exact ⟨by simp [effectiveLevel, hx, h1], fun l r h => by simp [effectiveLevel, hx, h2 l r h]⟩

/-- A message the server can read and whose level it can compare. -/
def GoodMessage (lt : Nat → Int → Bool) (m : Option Wire) : Prop := ∃ d, readRecord m = .ok d ∧ ∀ n, ∃ b, levelBelow lt d n = .ok b

theorem logsrv_good {lt} {filter : Bool} {levels : List Int} (es : List LogSrvEv) (h : ∀ m ∈ arrivedOf es, GoodMessage lt m) :
    ∀ e, .crashed e ∉ (LogSrvSt.run lt { filter, levels } es).2 := by
  induction es using snoc_induction with
  | h0 => simp [LogSrvSt.run]
  | hs es ev ih =>
    intro e
    rw [logsrv_run_snoc]
    have hold := ih (fun m hm => h m (by rw [arrivedOf_append]; simp [hm]))
    obtain ⟨k, hk, _⟩ := (logsrv_run lt filter levels es).order
    have hin : ∀ m ∈ (LogSrvSt.run lt { filter, levels } es).1.inbox, GoodMessage lt m := by
      intro m hm
      exact h m (by rw [arrivedOf_append, hk]; simp [hm])
    generalize (LogSrvSt.run lt { filter, levels } es).1 = s at hin
    intro hm
    rcases List.mem_append.1 hm with hm | hm
    · exact hold e hm
    · cases ev with
      | arrive m => simp [LogSrvSt.step] at hm
      | setLevels l => simp [LogSrvSt.step] at hm
      | stop => simp [LogSrvSt.step] at hm
      | go =>
        simp only [LogSrvSt.step, LogSrvSt.go] at hm
        split at hm
        · simp at hm
        · split at hm
          · simp at hm
          · cases hi : s.inbox with
            | nil => simp [hi] at hm
            | cons m r =>
              obtain ⟨d, hd, hb⟩ := hin m (by simp [hi])
              obtain ⟨b, hb⟩ := hb (effectiveLevel s.levels)
              simp only [hi, hd, hb] at hm
              cases hfl : s.filter <;> cases b <;> simp [hfl] at hm

/-- **C55** If every message that arrived is good, the records read are those of the messages, in order of arrival, except those still waiting. -/
theorem C55_order (lt) (filter : Bool) (levels : List Int) (es : List LogSrvEv) (h : ∀ m ∈ arrivedOf es, GoodMessage lt m) :
    (arrivedOf es).map readRecord =
      ((readsOf (LogSrvSt.run lt { filter, levels } es).2).map fun rl => .ok rl.1) ++ (LogSrvSt.run lt { filter, levels } es).1.inbox.map readRecord := by
  obtain ⟨k, hk, h1, _⟩ := (logsrv_run lt filter levels es).order
  rw [← h1 (logsrv_good es h), ← List.map_append, ← hk]

/-- **C55** The levels used are those the logger had: with the levels unchanged, every record is compared with the effective level. -/
theorem C55_fixed (lt) (filter : Bool) (levels : List Int) (es : List LogSrvEv) (h : ∀ l, .setLevels l ∉ es) :
    ∀ rl ∈ readsOf (LogSrvSt.run lt { filter, levels } es).2, rl.2 = effectiveLevel levels := by
  have key : ∀ (es : List LogSrvEv), (∀ l, .setLevels l ∉ es) → (LogSrvSt.run lt { filter, levels } es).1.levels = levels ∧
      ∀ rl ∈ readsOf (LogSrvSt.run lt { filter, levels } es).2, rl.2 = effectiveLevel levels := by
    intro es
    induction es using snoc_induction with
    | h0 => intro _; exact ⟨rfl, by simp [LogSrvSt.run, readsOf]⟩
    | hs es e ih =>
      intro h
      obtain ⟨i1, i2⟩ := ih (fun l hl => h l (by simp [hl]))
      rw [logsrv_run_snoc, readsOf_append]
      generalize (LogSrvSt.run lt { filter, levels } es).1 = s at i1
      have hst : (s.step lt e).1.levels = levels ∧ ∀ rl ∈ readsOf (s.step lt e).2, rl.2 = effectiveLevel levels := by
        cases e with
        | arrive m => exact ⟨i1, by simp [LogSrvSt.step, readsOf]⟩
        | setLevels l => exact absurd (by simp) (h l)
        | stop => exact ⟨i1, by simp [LogSrvSt.step, readsOf]⟩
        | go =>
          simp only [LogSrvSt.step, LogSrvSt.go]
          rw [← i1]
          repeat' split
          all_goals simp [readsOf]
      refine ⟨hst.1, fun rl hrl => ?_⟩
      rcases List.mem_append.1 hrl with hrl | hrl
      · exact i2 rl hrl
      · exact hst.2 rl hrl
  exact (key es h).2

/-- The levels in force after some events: those set last. -/
def levelsAfter (levels : List Int) (es : List LogSrvEv) : List Int :=
  es.foldl (fun l e => match e with | .setLevels l' => l' | _ => l) levels

/-- **C55** Every record is compared with the effective level of the levels that were set last when it was read. -/
theorem C55_current (lt) (filter : Bool) (levels : List Int) (es : List LogSrvEv) (e : LogSrvEv) :
    ∀ rl ∈ readsOf ((LogSrvSt.run lt { filter, levels } es).1.step lt e).2, rl.2 = effectiveLevel (levelsAfter levels es) := by
  have key : (LogSrvSt.run lt { filter, levels } es).1.levels = levelsAfter levels es := by
    induction es using snoc_induction with
    | h0 => rfl
    | hs es e ih =>
      have ha : levelsAfter levels (es ++ [e]) = levelsAfter (levelsAfter levels es) [e] := by simp only [levelsAfter, List.foldl_append]
      rw [logsrv_run_snoc, ha, ← ih]
      generalize (LogSrvSt.run lt { filter, levels } es).1 = s
      cases e with
      | arrive m => rfl
      | setLevels l => rfl
      | stop => rfl
      | go =>
        simp only [LogSrvSt.step, LogSrvSt.go, levelsAfter, List.foldl]
        repeat' split
        all_goals rfl
  rw [← key]
  generalize (LogSrvSt.run lt { filter, levels } es).1 = s
  cases e with
  | arrive m => simp [LogSrvSt.step, readsOf]
  | setLevels l => simp [LogSrvSt.step, readsOf]
  | stop => simp [LogSrvSt.step, readsOf]
  | go =>
    simp only [LogSrvSt.step, LogSrvSt.go]
    repeat' split
    all_goals simp [readsOf]

/-- **C55** If every message that arrived is good and the server was not stopped, everything that arrived is read: its thread only has to go on. -/
theorem C55_all (lt) (filter : Bool) (levels : List Int) (es : List LogSrvEv) (h : ∀ m ∈ arrivedOf es, GoodMessage lt m) (hs : .stop ∉ es) :
    ∃ n, (arrivedOf es).map readRecord = (readsOf (LogSrvSt.run lt { filter, levels } (es ++ List.replicate n .go)).2).map fun rl => .ok rl.1 := by
  -- the thread is alive and goes on
  have alive : ∀ es : List LogSrvEv, (∀ m ∈ arrivedOf es, GoodMessage lt m) → .stop ∉ es →
      (LogSrvSt.run lt { filter, levels } es).1.alive = true ∧ (LogSrvSt.run lt { filter, levels } es).1.running = true := by
    intro es
    induction es using snoc_induction with
    | h0 => intros; exact ⟨rfl, rfl⟩
    | hs es e ih =>
      intro h hs
      obtain ⟨i1, i2⟩ := ih (fun m hm => h m (by rw [arrivedOf_append]; simp [hm])) (fun hh => hs (by simp [hh]))
      have hno := logsrv_good (filter := filter) (levels := levels) _ h
      rw [logsrv_run_snoc] at hno ⊢
      generalize LogSrvSt.run lt { filter, levels } es = sr at i1 i2 hno
      obtain ⟨s, os⟩ := sr
      simp only at i1 i2 hno
      cases e with
      | arrive m => exact ⟨i1, i2⟩
      | setLevels l => exact ⟨i1, i2⟩
      | stop => exact absurd (by simp) hs
      | go =>
        simp only [LogSrvSt.step, LogSrvSt.go, i1, i2] at hno ⊢
        cases hi : s.inbox with
        | nil => simp [i1, i2]
        | cons m r =>
          simp only [hi] at hno ⊢
          cases hr : readRecord m with
          | error e => simp only [hr] at hno; exact absurd (by simp) (hno e)
          | ok d =>
            simp only [hr] at hno ⊢
            cases hfl : s.filter with
            | false => simp
            | true =>
              cases hb : levelBelow lt d (effectiveLevel s.levels) with
              | error e => simp only [hb, hfl] at hno; exact absurd (by simp) (hno e)
              | ok b => cases b <;> simp
  have key : ∀ n (es : List LogSrvEv), (∀ m ∈ arrivedOf es, GoodMessage lt m) → .stop ∉ es → (LogSrvSt.run lt { filter, levels } es).1.inbox.length = n →
      ∃ n, (arrivedOf es).map readRecord = (readsOf (LogSrvSt.run lt { filter, levels } (es ++ List.replicate n .go)).2).map fun rl => .ok rl.1 := by
    intro n
    induction n with
    | zero =>
      intro es h hs hn
      refine ⟨0, ?_⟩
      rw [List.replicate_zero, List.append_nil, C55_order lt filter levels es h, List.length_eq_zero_iff.1 hn]
      simp
    | succ n ih =>
      intro es h hs hn
      have ha : arrivedOf (es ++ [.go]) = arrivedOf es := by simp [arrivedOf]
      obtain ⟨a1, a2⟩ := alive es h hs
      obtain ⟨m, hm⟩ := ih (es ++ [.go]) (by rw [ha]; exact h) (by simpa using hs) (by
        rw [logsrv_run_snoc]
        generalize (LogSrvSt.run lt { filter, levels } es).1 = s at a1 a2 hn
        simp only [LogSrvSt.step, LogSrvSt.go, a1, a2]
        cases hi : s.inbox with
        | nil => simp [hi] at hn
        | cons m r =>
          simp only [hi, List.length_cons, Nat.add_right_cancel_iff] at hn
          simp only
          repeat' split
          all_goals first | exact hn | simp_all)
      refine ⟨m + 1, ?_⟩
      rw [ha] at hm
      rw [hm, List.replicate_succ, List.append_assoc]
      rfl
  exact key _ es h hs rfl

/-- **C55** A stopped server passes nothing on any more: after `stop` and one pass of the loop its thread has ended. -/
theorem C55_stop (lt) (s : LogSrvSt) (hs : s.running = false) (es : List LogSrvEv) : passedOf (s.run lt es).2 = [] ∧
    ((s.step lt .go).1.alive = false) := by
  constructor
  · induction es generalizing s with
    | nil => rfl
    | cons e es ih =>
      simp only [LogSrvSt.run]
      rw [passedOf_append]
      have : (s.step lt e).1.running = false ∧ passedOf (s.step lt e).2 = [] := by
        cases e with
        | arrive m => exact ⟨hs, rfl⟩
        | setLevels l => exact ⟨hs, rfl⟩
        | stop => exact ⟨rfl, rfl⟩
        | go =>
          simp only [LogSrvSt.step, LogSrvSt.go, hs]
          cases s.alive <;> simp [hs, passedOf]
      rw [this.2, ih _ this.1]; rfl
  · simp only [LogSrvSt.step, LogSrvSt.go, hs]
    cases hh : s.alive <;> simp [hh]

/-! ## C75: end to end -/

theorem zip_append {α β : Type} {R : α → β → Prop} {a a' : List α} {b b' : List β} (h : Zip R a b) (h' : Zip R a' b') : Zip R (a ++ a') (b ++ b') := by
  induction h with
  | nil => exact h'
  | cons h _ ih => exact .cons h ih

theorem zip_wires {L : Lib} {fmt} {N : LogNames} {a : Bytes} {ns : List LogNames} : ∀ (os : List SenderOut),
    (∀ o ∈ os, (∃ r w, ∃ M ∈ ns, o = .sent a r w ∧ messageFor L fmt M r = .ok w) ∨ (∃ r e, ∃ M ∈ ns, o = .crashed r e ∧ messageFor L fmt M r = .error e)) →
    Zip (fun r w => ∃ M ∈ ns, messageFor L fmt M r = .ok w) (sentOf os) (wiresOf os)
  | [], _ => .nil
  | o :: os, h => by
    have ih := zip_wires (N := N) os (fun o ho => h o (by simp [ho]))
    rcases h o (by simp) with ⟨r, w, M, hM, rfl, hm⟩ | ⟨r, e, M, hM, rfl, hm⟩
    · exact .cons ⟨M, hM, hm⟩ ih
    · exact ih

theorem zip_prefix {α β γ : Type} {R : α → β → Prop} {S : α → γ → Prop} {f : β → Except Exc γ} (H : ∀ a b c, R a b → f b = .ok c → S a c) :
    ∀ {as : List α} {bs bs' : List β} {cs : List γ}, Zip R as bs → bs' <+: bs → bs'.map f = cs.map .ok → ∃ k, Zip S (as.take k) cs
  | _, _, [], cs, _, _, h => by
    have : cs = [] := by simpa using h.symm
    subst this
    exact ⟨0, by simpa using Zip.nil⟩
  | _, _, b :: bs', cs, hz, hp, h => by
    obtain ⟨t, ht⟩ := hp
    cases hz with
    | nil => simp at ht
    | cons hR hz =>
      simp only [List.cons_append, List.cons.injEq] at ht
      obtain ⟨rfl, ht⟩ := ht
      cases cs with
      | nil => simp at h
      | cons c cs =>
        simp only [List.map_cons, List.cons.injEq] at h
        obtain ⟨k, hk⟩ := zip_prefix H hz ⟨t, ht⟩ h.2
        exact ⟨k + 1, .cons (H _ _ _ hR h.1) hk⟩

/-- **C75** End to end. A process logs plain records through an undisturbed sender, and their messages arrive at a server, in order. Then the
server reads, one for one and in the order they were logged, records that are what was logged with the message formatted and names the process had
added. (By `C55_filter` those not below the level are handled by the logger of the server; `C56_all` and `C55_all` say that everything logged is sent
and everything that arrived is read.) -/
theorem C75_delivered (L : Lib) (fmt) (N : LogNames) (a : Bytes) (es : List SenderEv) (hc : Calm es) (hg : ∀ r ∈ handledOf es, PlainRecord fmt r)
    (hl : ∀ r ∈ handledOf es, ∃ i, r.get? "levelno" = some (.int i))
    (lt) (filter : Bool) (levels : List Int) (fs : List LogSrvEv)
    (hf : arrivedOf fs <+: (wiresOf ((SenderSt.init N a).run L fmt es).2).map some) :
    ∃ k, Zip (fun r d => ∃ M ∈ namesOf N es, Arrived fmt M r d) ((handledOf es).take k) ((readsOf (LogSrvSt.run lt { filter, levels } fs).2).map (·.1)) := by
  obtain ⟨hpre, hout⟩ := C56_order L fmt N a es hc
  have hz := zip_wires (N := N) _ hout
  -- pairs of records logged and messages
  have hz1 : Zip (fun r (m : Option Wire) => r ∈ handledOf es ∧ ∃ w, m = some w ∧ ∃ M ∈ namesOf N es, messageFor L fmt M r = .ok w)
      (sentOf ((SenderSt.init N a).run L fmt es).2) ((wiresOf ((SenderSt.init N a).run L fmt es).2).map some) := by
    have hmem : ∀ r ∈ sentOf ((SenderSt.init N a).run L fmt es).2, r ∈ handledOf es := fun r hr => hpre.subset hr
    revert hz hmem
    generalize sentOf ((SenderSt.init N a).run L fmt es).2 = x
    generalize wiresOf ((SenderSt.init N a).run L fmt es).2 = y
    intro hz
    induction hz with
    | nil => intro _; exact .nil
    | cons h _ ih => intro hmem; exact .cons ⟨hmem _ (by simp), _, rfl, h⟩ (ih fun r hr => hmem r (by simp [hr]))
  have hread : ∀ r m, (r ∈ handledOf es ∧ ∃ w, m = some w ∧ ∃ M ∈ namesOf N es, messageFor L fmt M r = .ok w) →
      ∃ d, readRecord m = .ok d ∧ ∃ M ∈ namesOf N es, Arrived fmt M r d := by
    rintro r m ⟨hr, w, rfl, M, hM, hw⟩
    obtain ⟨w', d, h1, h2, h3⟩ := C75_record L fmt M r (hg r hr)
    rw [hw] at h1; cases h1
    exact ⟨d, h2, M, hM, h3⟩
  have hgood : ∀ m ∈ arrivedOf fs, GoodMessage lt m := by
    have : ∀ m ∈ (wiresOf ((SenderSt.init N a).run L fmt es).2).map some, GoodMessage lt m := by
      revert hz1
      generalize sentOf ((SenderSt.init N a).run L fmt es).2 = x
      generalize (wiresOf ((SenderSt.init N a).run L fmt es).2).map some = y
      intro hz
      induction hz with
      | nil => simp
      | @cons r m rs ms h _ ih =>
        intro m' hm'
        simp only [List.mem_cons] at hm'
        rcases hm' with rfl | hm'
        · obtain ⟨d, h1, M, hM, h2⟩ := hread r m' h
          obtain ⟨i, hi⟩ := hl r h.1
          refine ⟨d, h1, fun n => ⟨decide (i < n), ?_⟩⟩
          have := h2.same "levelno" _ (by decide) (by decide) (by decide) (by decide) (by decide) hi
          simp [levelBelow, this]
        · exact ih m' hm'
    exact fun m hm => this m (hf.subset hm)
  obtain ⟨q, hq, hq1, _⟩ := (logsrv_run lt filter levels fs).order
  have hq2 := hq1 (logsrv_good fs hgood)
  have hqp : q <+: (wiresOf ((SenderSt.init N a).run L fmt es).2).map some := by
    obtain ⟨t, ht⟩ := hf
    exact ⟨(LogSrvSt.run lt { filter, levels } fs).1.inbox ++ t, by rw [← List.append_assoc, ← hq, ht]⟩
  obtain ⟨k, hk⟩ := zip_prefix (S := fun r d => ∃ M ∈ namesOf N es, Arrived fmt M r d) (f := readRecord) (cs := (readsOf (LogSrvSt.run lt { filter, levels } fs).2).map (·.1)) (by
    intro r m d hR hd
    obtain ⟨d', h1, h2⟩ := hread r m hR
    rw [hd] at h1; cases h1
    exact h2) hz1 hqp (by rw [hq2, List.map_map]; rfl)
  obtain ⟨t, ht⟩ := hpre
  refine ⟨min k (sentOf ((SenderSt.init N a).run L fmt es).2).length, ?_⟩
  have : (handledOf es).take (min k (sentOf ((SenderSt.init N a).run L fmt es).2).length) = (sentOf ((SenderSt.init N a).run L fmt es).2).take k := by
    rw [← ht, List.take_append_of_le_length (Nat.min_le_right _ _)]
    by_cases hkk : k ≤ (sentOf ((SenderSt.init N a).run L fmt es).2).length
    · rw [Nat.min_eq_left hkk]
    · rw [Nat.min_eq_right (by omega), List.take_length, List.take_of_length_le (by omega)]
  rw [this]
  exact hk

/-! ## C73: whose name is written -/

/-- The attributes of a record the sorting handler reads; /repo/teleprox/log/handler.py:104-107 (`getattr(record, 'hostname', ...)`, ...). -/
def handlerRec (uid : Nat) (created level : Int) (thread : Nat) (d : Fields) : LogRec :=
  let str := fun k => match d.get? k with | some (.str s) => some s | _ => none
  { uid, created, level, thread, hostname := str "hostname", processName := str "process_name", threadName := str "thread_name" }

/-- **C73** The process and the thread of a forwarded record are those where it was logged. -/
theorem C73_names_partial (L : Lib) (fmt) (N : LogNames) (r : Fields) (h : PlainRecord fmt r) (p t : String) (i : Int) (hp : N.process = some p)
    (ht : r.get? "thread" = some (.int i)) (ht' : N.threads.get? i = some t) (E : LogEnv) (uid created level thread) :
    ∃ w d, messageFor L fmt N r = .ok w ∧ readRecord (some w) = .ok d ∧
      (E.headerKey (handlerRec uid created level thread d)).2 = (p, t) := by
  obtain ⟨w, d, h1, h2, h3⟩ := C75_record L fmt N r h
  refine ⟨w, d, h1, h2, ?_⟩
  simp only [LogEnv.headerKey, handlerRec, h3.process p hp, h3.thread i t ht ht', Option.getD_some]

/-- **C73 fails** for the host: the sender writes 'host_name', the handler reads 'hostname', so every forwarded record is labelled with the host of the
process that writes it, wherever it came from. -/
theorem C73_fails (L : Lib) (fmt) (N : LogNames) (r : Fields) (h : PlainRecord fmt r) (hh : r.get? "hostname" = none) (E : LogEnv) (uid created level thread) :
    ∃ w d, messageFor L fmt N r = .ok w ∧ readRecord (some w) = .ok d ∧
      (E.headerKey (handlerRec uid created level thread d)).1 = E.host := by
  obtain ⟨d0, h0⟩ := forward_plain h N
  obtain ⟨w, d, h1, h2, h3⟩ := C75_record L fmt N r h
  refine ⟨w, d, h1, h2, ?_⟩
  -- no attribute 'hostname' appears
  obtain ⟨hw, ho, -⟩ := forward_spec h.wf h0
  have hnone : d0.get? "hostname" = none := by rw [ho _ (by decide) (by decide) (by decide) (by decide) (by decide), hh]
  have hd : d.get? "hostname" = none := by
    simp only [messageFor, h0] at h1
    have : plainLoads w = .ok (Fields.val d0) := by
      have hplain : ∃ w', plainDumps L jsonDepth (Fields.val d0) = .ok w' ∧ plainLoads w' = .ok (Fields.val d0) := by
        refine plain_roundtrip L 1000 _ (.dict hw fun k v hm => ?_)
        exact forward_plainN h h0 k v (dict_mem_val hw hm)
      obtain ⟨w', g1, g2⟩ := hplain
      rw [h1] at g1; cases g1
      exact g2
    obtain ⟨d', hd1, hd2⟩ := update_get d0 defaultRecord hw
    simp only [readRecord, this, Fields.val] at h2
    have h2' : updateFields defaultRecord (d0.map fun kv => (Val.str kv.1, kv.2)) = .ok d := h2
    rw [hd1] at h2'; cases h2'
    rw [hd2, hnone]; rfl
  simp [LogEnv.headerKey, handlerRec, hd]

/-! ## C74: one bad record -/

/-- **C74 fails** Once the thread of a sender has died or ended, nothing is ever sent again, whatever is logged and whoever connects it. -/
theorem C74_dead (L : Lib) (fmt) (s : SenderSt) (h : s.pc = .crashed ∨ s.pc = .finished) (es : List SenderEv) : sentOf (s.run L fmt es).2 = [] := by
  induction es generalizing s with
  | nil => rfl
  | cons e es ih =>
    simp only [SenderSt.run]
    rw [sentOf_append]
    have : ((s.step L fmt e).1.pc = .crashed ∨ (s.step L fmt e).1.pc = .finished) ∧ sentOf (s.step L fmt e).2 = [] := by
      cases e with
      | build => exact ⟨h, rfl⟩
      | handle r => simp only [SenderSt.step]; split <;> exact ⟨h, rfl⟩
      | go =>
        simp only [SenderSt.step, SenderSt.go]
        split
        · exact ⟨h, rfl⟩
        · rcases h with h | h <;> simp [h, sentOf]
      | connectClose => simp only [SenderSt.step]; split <;> exact ⟨h, rfl⟩
      | connectOpen a => simp only [SenderSt.step]; split <;> exact ⟨h, rfl⟩
      | closePut => simp only [SenderSt.step]; split <;> exact ⟨h, rfl⟩
      | closeSwap => simp only [SenderSt.step]; split <;> exact ⟨h, rfl⟩
      | rename N => exact ⟨h, rfl⟩
    rw [this.2, ih _ this.1]; rfl

theorem sender_ended_step (L : Lib) (fmt) (s : SenderSt) (e : SenderEv) : (s.pc = .finished → (s.step L fmt e).1.pc = .finished) ∧ (.ended ∈ (s.step L fmt e).2 → (s.step L fmt e).1.pc = .finished) := by
  cases e with
  | go =>
    simp only [SenderSt.step, SenderSt.go]
    split
    · simp
    · split <;> (try split) <;> (try split) <;> (try split) <;> simp_all
  | build => simp [SenderSt.step]
  | handle r => simp only [SenderSt.step]; split <;> simp
  | connectClose => simp only [SenderSt.step]; split <;> simp
  | connectOpen a => simp only [SenderSt.step]; split <;> simp
  | closePut => simp only [SenderSt.step]; split <;> simp
  | closeSwap => simp only [SenderSt.step]; split <;> simp
  | rename N => simp [SenderSt.step]

/-- **C56** Once the thread has taken the mark that `close()` puts in the queue, nothing more is sent, in any history before and after. -/
theorem C56_closed (L : Lib) (fmt) (es es' : List SenderEv) : ∀ (s : SenderSt), .ended ∈ (s.run L fmt es).2 → sentOf ((s.run L fmt es).1.run L fmt es').2 = [] := by
  have fin : ∀ (es : List SenderEv) (s : SenderSt), s.pc = .finished → (s.run L fmt es).1.pc = .finished := by
    intro es
    induction es with
    | nil => intro s h; exact h
    | cons e es ih => intro s h; exact ih _ ((sender_ended_step L fmt s e).1 h)
  have key : ∀ (es : List SenderEv) (s : SenderSt), .ended ∈ (s.run L fmt es).2 → (s.run L fmt es).1.pc = .finished := by
    intro es
    induction es with
    | nil => intro s h; cases h
    | cons e es ih =>
      intro s h
      simp only [SenderSt.run, List.mem_append] at h ⊢
      rcases h with h | h
      · exact fin es _ ((sender_ended_step L fmt s e).2 h)
      · exact ih _ h
  intro s h
  exact C74_dead L fmt _ (.inr (key es s h)) es'

/-- **C74 fails** A record that cannot be forwarded, taken by the thread of a connected sender, kills it: all later records are lost. -/
theorem C74_fails (L : Lib) (fmt) (s : SenderSt) (r : Fields) (e : Exc) (hb : s.built = true) (hk : ∃ k, s.sock = some k) (hp : s.pc = .checked r)
    (he : messageFor L fmt s.names r = .error e) (es : List SenderEv) : sentOf (s.run L fmt (.go :: es)).2 = [] := by
  simp only [SenderSt.run]
  rw [sentOf_append]
  obtain ⟨k, hk⟩ := hk
  have : (s.step L fmt .go).1.pc = .crashed ∧ sentOf (s.step L fmt .go).2 = [] := by
    simp only [SenderSt.step, SenderSt.go, hb, hp, if_neg (show ¬ (true = false) by simp)]
    unfold messageFor at he
    cases hf : forwardFields fmt s.names r with
    | error e' => simp [sentOf]
    | ok d =>
      rw [hf] at he
      simp only at he
      simp [hk, he, sentOf]
  rw [this.2, C74_dead L fmt _ (Or.inl this.1) es]; rfl

/-- **C74** A record is refused in one of three ways: its message cannot be formatted or a name is missing (`forwardFields`), a value is of a type JSON does not know (TypeError), or a value is nested
too deep (RecursionError). A record with an attribute of its own that is nested 999 deep is always refused. -/
theorem C74_refused (L : Lib) (fmt) (N : LogNames) (r : Fields) :
    (∀ e, messageFor L fmt N r = .error e → forwardFields fmt N r = .error e ∨ e = .typeError ∨ e = .other "RecursionError") ∧
    (r.WF → ∀ k v, k ≠ "args" → k ≠ "msg" → k ≠ "process_name" → k ≠ "thread_name" → k ≠ "host_name" → r.get? k = some v → DeepVal 999 v →
      ∃ e, messageFor L fmt N r = .error e) := by
  refine ⟨fun e h => ?_, fun hw k v h1 h2 h3 h4 h5 hk hv => ?_⟩
  · unfold messageFor at h
    cases hf : forwardFields fmt N r with
    | error e' => rw [hf] at h; cases h; exact .inl rfl
    | ok d => rw [hf] at h; exact .inr (plainDumps_exc L _ _ _ h)
  · unfold messageFor
    cases hf : forwardFields fmt N r with
    | error e' => exact ⟨e', rfl⟩
    | ok d =>
      obtain ⟨_, ho, _⟩ := forward_spec hw hf
      rw [← ho k h1 h2 h3 h4 h5] at hk
      exact plainDumps_entry L 999 d k v (Dict.get?_some_mem hk) (plainDumps_deep L _ v hv)

/-- **C74 fails** also for good records: if another thread connects the sender to another address while a record is about to be sent, the thread of the sender dies of a ZMQError, and all later
records are lost. -/
theorem C74_fails_reconnect (L : Lib) (fmt) (s : SenderSt) (r : Fields) (w : Wire) (k : Nat) (hb : s.built = true) (hk : s.sock = some k) (hp : s.pc = .sending r k w) (a : Bytes) (es : List SenderEv) :
    (s.run L fmt [.connectClose, .connectOpen (some a), .go]).2 = [.crashed r .zmqError] ∧ sentOf (s.run L fmt (.connectClose :: .connectOpen (some a) :: .go :: es)).2 = [] := by
  have h1 : s.step L fmt .connectClose = ({ s with closed := k :: s.closed }, []) := by simp only [SenderSt.step, hk]
  have h2 : ({ s with closed := k :: s.closed, sock := some s.nsock, nsock := s.nsock + 1, addrs := s.addrs.set s.nsock a } : SenderSt).go L fmt =
      ({ s with closed := k :: s.closed, sock := some s.nsock, nsock := s.nsock + 1, addrs := s.addrs.set s.nsock a, pc := .crashed }, [.crashed r .zmqError]) := by
    simp [SenderSt.go, hb, hp]
  constructor
  · simp only [SenderSt.run, h1]
    simp only [SenderSt.step]
    rw [h2]
    rfl
  · simp only [SenderSt.run, h1]
    simp only [SenderSt.step]
    rw [h2]
    simp only [List.nil_append, sentOf_append]
    rw [C74_dead L fmt _ (Or.inl rfl) es]
    rfl

/-! ## C76: the log address of a process -/

/-- **C76** `get_logger_address()` returns the address of the server of this process, if one was started, else the last address that was set. -/
theorem C76_address (es : List LogGlobalEv) :
    (LogGlobals.step (LogGlobals.run {} es).1 .getAddress).2 =
      .address (match (es.filterMap fun e => match e with | .startServer a => some a | _ => none).head? with
        | some a => some a
        | none => (es.filterMap fun e => match e with | .setAddress a => some a | _ => none).getLast?) := by
  have snoc : ∀ (g : LogGlobals) (es : List LogGlobalEv) e, (g.run (es ++ [e])).1 = ((g.run es).1.step e).1 := by
    intro g es e
    induction es generalizing g with
    | nil => rfl
    | cons x es ih => simp only [List.cons_append, LogGlobals.run, ih]
  have key : (LogGlobals.run {} es).1.server = (es.filterMap fun e => match e with | .startServer a => some a | _ => none).head? ∧
      (LogGlobals.run {} es).1.serverAddr = (es.filterMap fun e => match e with | .setAddress a => some a | _ => none).getLast? := by
    induction es using snoc_induction with
    | h0 => exact ⟨rfl, rfl⟩
    | hs es e ih =>
      rw [snoc]
      cases e with
      | startServer a =>
        simp only [LogGlobals.step, List.filterMap_append, List.filterMap_cons, List.filterMap_nil, List.append_nil, List.head?_append]
        split
        · rename_i h
          refine ⟨?_, ih.2⟩
          rw [ih.1] at h ⊢
          cases hh : (es.filterMap fun e => match e with | .startServer a => some a | _ => none).head? with
          | none => exact absurd hh h
          | some x => rfl
        · rename_i h
          refine ⟨?_, ih.2⟩
          have h : (LogGlobals.run {} es).1.server = none := Classical.byContradiction h
          rw [ih.1] at h
          rw [h]; rfl
      | setAddress a =>
        simp only [LogGlobals.step, List.filterMap_append, List.filterMap_cons, List.filterMap_nil, List.append_nil, List.getLast?_append]
        exact ⟨ih.1, by simp⟩
      | getAddress =>
        simp only [LogGlobals.step, List.filterMap_append, List.filterMap_cons, List.filterMap_nil, List.append_nil]
        exact ih
  simp only [LogGlobals.step, key.1, key.2]
  cases (es.filterMap fun e => match e with | .startServer a => some a | _ => none).head? <;> rfl

/-- **C76** Starting a second server raises and changes nothing. -/
theorem C76_once (es : List LogGlobalEv) (a b : Bytes) (h : .startServer a ∈ es) :
    LogGlobals.step (LogGlobals.run {} es).1 (.startServer b) = ((LogGlobals.run {} es).1, .raised) := by
  have keep : ∀ (es : List LogGlobalEv) (g : LogGlobals), g.server ≠ none → (g.run es).1.server ≠ none := by
    intro es
    induction es with
    | nil => intro g h; exact h
    | cons e es ih =>
      intro g h
      refine ih _ ?_
      cases e <;> simp [LogGlobals.step, h]
  have : ∀ (es : List LogGlobalEv) (g : LogGlobals), .startServer a ∈ es → (g.run es).1.server ≠ none := by
    intro es
    induction es with
    | nil => intro g h; simp at h
    | cons e es ih =>
      intro g h
      simp only [List.mem_cons] at h
      rcases h with rfl | h
      · show ((g.step (.startServer a)).1.run es).1.server ≠ none
        refine keep es _ ?_
        simp only [LogGlobals.step]
        split
        · assumption
        · simp
      · exact ih _ h
  simp only [LogGlobals.step, if_pos (this es {} h)]

namespace Ex

def childNames : LogNames := { host := "farhost", process := some "child", threads := [(7, "worker")] }

/-- `logger.warning("got %s", "x")` -/
def logged : Fields :=
  [("name", .str "app"), ("msg", .str "got %s"), ("args", .tuple [.str "x"]), ("levelno", .int 30), ("thread", .int 7), ("threadName", .str "Thread-1"),
   ("created", .float 4600000000000000000), ("exc_info", .none)]

/-- `logger.info("fine")` -/
def loggedInfo : Fields := [("msg", .str "fine"), ("args", .tuple []), ("levelno", .int 20), ("thread", .int 8), ("threadName", .str "MainThread"), ("exc_info", .none)]

/-- `logger.exception("oops")`: `exc_info` holds the exception. -/
def loggedException : Fields := [("msg", .str "oops"), ("args", .tuple []), ("levelno", .int 40), ("thread", .int 8), ("threadName", .str "MainThread"), ("exc_info", .tuple [.obj 1 [.object], .obj 2 [.object], .obj 3 [.object]])]

def fmtS : Val → Val → Except Exc Val
  | .str "got %s", .tuple [.str x] => .ok (.str ("got " ++ x))
  | _, _ => .error .typeError

theorem logged_plain : PlainRecord fmtS logged := by
  refine ⟨by unfold Dict.WF; decide, ?_, ⟨_, rfl⟩, ⟨_, rfl⟩, _, 1, rfl, rfl, fun _ => ⟨_, _, rfl, rfl⟩⟩
  intro k v h hk
  have hm := Dict.get?_some_mem h
  simp only [logged, List.mem_cons, Prod.mk.injEq, List.not_mem_nil, or_false] at hm
  rcases hm with ⟨rfl, rfl⟩ | ⟨rfl, rfl⟩ | ⟨rfl, rfl⟩ | ⟨rfl, rfl⟩ | ⟨rfl, rfl⟩ | ⟨rfl, rfl⟩ | ⟨rfl, rfl⟩ | ⟨rfl, rfl⟩
  all_goals first | exact absurd rfl hk | constructor

/-- What the server reads, field by field. -/
def readBack (L : Lib) (r : Fields) : Option Fields :=
  match messageFor L fmtS childNames r with
  | .ok w => match readRecord (some w) with | .ok d => some d | .error _ => none
  | .error _ => none

example (L : Lib) : (match (readBack L logged).bind (·.get? "msg"), (readBack L logged).bind (·.get? "thread_name"), (readBack L logged).bind (·.get? "host_name") with
    | some (.str "got x"), some (.str "worker"), some (.str "farhost") => true | _, _, _ => false) = true := by rfl

/-- A history: two records logged, the thread sends both. -/
def logging2 : List SenderEv := [.handle logged, .go, .handle loggedInfo, .go, .go, .go, .go, .go, .go, .go]
example : Calm logging2 := by
  intro e he
  simp only [logging2, List.mem_cons, List.not_mem_nil, or_false] at he
  rcases he with rfl | rfl | rfl | rfl | rfl | rfl | rfl | rfl | rfl | rfl <;> trivial
example (L : Lib) : (sentOf ((SenderSt.init childNames []).run L fmtS logging2).2).map (·.get? "levelno" |>.isSome) = [true, true] := by rfl
example (L : Lib) : (wiresOf ((SenderSt.init childNames []).run L fmtS logging2).2).length = 2 := by rfl

/-- The server handles the warning and drops the record of level 20, as its logger has level 30. -/
example : ((passedOf (LogSrvSt.run (fun _ _ => false) { filter := true, levels := [0, 30] }
      (((wiresOf ((SenderSt.init childNames []).run lib fmtS logging2).2).map fun w => .arrive (some w)) ++ [.go, .go, .go])).2).map fun r =>
        match r.get? "msg" with | some (.str s) => s | _ => "") = ["got x"] := by decide +kernel
example : ((passedOf (LogSrvSt.run (fun _ _ => false) { filter := false, levels := [0, 30] }
      (((wiresOf ((SenderSt.init childNames []).run lib fmtS logging2).2).map fun w => .arrive (some w)) ++ [.go, .go, .go])).2).map fun r =>
        match r.get? "msg" with | some (.str s) => s | _ => "") = ["got x", "fine"] := by decide +kernel

/-- **C74 fails** `logger.exception(...)` in a child ends forwarding for good: a record logged later is never sent. -/
theorem C74_exception (L : Lib) (es : List SenderEv) :
    sentOf ((SenderSt.init childNames []).run L fmtS ([.handle loggedException, .go, .go, .go, .handle logged] ++ es)).2 = [] := by
  rw [sender_run_append, sentOf_append]
  have h1 : sentOf ((SenderSt.init childNames []).run L fmtS [.handle loggedException, .go, .go, .go, .handle logged]).2 = [] := by rfl
  have h2 : ((SenderSt.init childNames []).run L fmtS [.handle loggedException, .go, .go, .go, .handle logged]).1.pc = .crashed := by rfl
  rw [h1, C74_dead L fmtS _ (Or.inl h2)]; rfl

/-- **C74 fails** A message that is not a string (allowed by the logging module) with arguments, or arguments that do not fit, do the same. -/
theorem C74_arguments (L : Lib) (es : List SenderEv) :
    sentOf ((SenderSt.init childNames []).run L fmtS ([.handle (logged.set "msg" (.str "no place")), .go, .go, .go, .handle logged] ++ es)).2 = [] := by
  rw [sender_run_append, sentOf_append]
  have h1 : sentOf ((SenderSt.init childNames []).run L fmtS [.handle (logged.set "msg" (.str "no place")), .go, .go, .go, .handle logged]).2 = [] := by rfl
  have h2 : ((SenderSt.init childNames []).run L fmtS [.handle (logged.set "msg" (.str "no place")), .go, .go, .go, .handle logged]).1.pc = .crashed := by rfl
  rw [h1, C74_dead L fmtS _ (Or.inl h2)]; rfl

/-- **C74 fails** `close()` (registered with atexit) loses what is still in the queue: it closes the socket at once. -/
theorem C74_close (L : Lib) (es : List SenderEv) (hes : ∀ e ∈ es, e = .go) :
    sentOf ((SenderSt.init childNames []).run L fmtS ([.handle logged, .closePut, .closeSwap] ++ es)).2 = [] := by
  have key : ∀ (es : List SenderEv) (s : SenderSt), (∀ e ∈ es, e = .go) → s.sock = none → (∀ r k w, s.pc = .sending r k w → k ∈ s.closed) →
      sentOf (s.run L fmtS es).2 = [] := by
    intro es
    induction es with
    | nil => intros; rfl
    | cons e es ih =>
      intro s hes hs hp
      have he := hes e (by simp)
      subst he
      simp only [SenderSt.run]
      rw [sentOf_append]
      have : (s.step L fmtS .go).1.sock = none ∧ (∀ r k w, (s.step L fmtS .go).1.pc = .sending r k w → k ∈ (s.step L fmtS .go).1.closed) ∧ sentOf (s.step L fmtS .go).2 = [] := by
        simp only [SenderSt.step, SenderSt.go]
        split
        · exact ⟨hs, hp, rfl⟩
        · cases hpc : s.pc with
          | idle => cases hq : s.queue with
            | nil => simp [hs, hpc, sentOf]
            | cons x q => cases x <;> simp [hs, sentOf]
          | got r => simp [hs, sentOf]
          | checked r => cases hf : forwardFields fmtS s.names r <;> simp [hs, hf, sentOf]
          | sending r k w => simp [hs, hp r k w hpc, sentOf]
          | finished => simp [hs, hpc, sentOf]
          | crashed => simp [hs, hpc, sentOf]
      rw [this.2.2, ih _ (fun e he => hes e (by simp [he])) this.1 this.2.1]; rfl
  rw [sender_run_append, sentOf_append, key es _ hes (by rfl) (by intro r k w h; exact absurd h (by simp [SenderSt.run, SenderSt.step, SenderSt.init]))]
  rfl

/-- **C74 fails** A record logged while the sender is being made raises in the thread that logs: the handler is attached before its queue exists. -/
theorem C74_early (L : Lib) (r : Fields) : (SenderSt.step L fmtS { built := false, names := childNames } (.handle r)).2.map (fun o => match o with | .raised .attributeError => true | _ => false) = [true] := by
  rfl

/-- One message that is no JSON object ends the server. -/
example (es : List LogSrvEv) : (LogSrvSt.run (fun _ _ => false) { filter := true, levels := [30] } [.arrive none, .go]).1.alive = false := by rfl

example : (LogGlobals.run {} [.setAddress [1], .startServer [2], .getAddress, .startServer [3], .setAddress [4], .getAddress]).2 =
    [.done, .done, .address (some [2]), .raised, .done, .address (some [2])] := by decide

end Ex

namespace Ex

/-! ## The theorems on these cases -/

theorem loggedInfo_plain : PlainRecord fmtS loggedInfo := by
  refine ⟨by unfold Dict.WF; decide, ?_, ⟨_, rfl⟩, ⟨_, rfl⟩, _, 0, rfl, rfl, fun h => absurd rfl h⟩
  intro k v h hk
  have hm := Dict.get?_some_mem h
  simp only [loggedInfo, List.mem_cons, Prod.mk.injEq, List.not_mem_nil, or_false] at hm
  rcases hm with ⟨rfl, rfl⟩ | ⟨rfl, rfl⟩ | ⟨rfl, rfl⟩ | ⟨rfl, rfl⟩ | ⟨rfl, rfl⟩ | ⟨rfl, rfl⟩
  all_goals first | exact absurd rfl hk | constructor

theorem logging2_calm : Calm logging2 := by
  intro e he
  simp only [logging2, List.mem_cons, List.not_mem_nil, or_false] at he
  rcases he with rfl | rfl | rfl | rfl | rfl | rfl | rfl | rfl | rfl | rfl <;> trivial

theorem logging2_plain : ∀ r ∈ handledOf logging2, PlainRecord fmtS r := by
  intro r hr
  have : handledOf logging2 = [logged, loggedInfo] := rfl
  rw [this] at hr
  simp only [List.mem_cons, List.not_mem_nil, or_false] at hr
  rcases hr with rfl | rfl
  · exact logged_plain
  · exact loggedInfo_plain

theorem forwardable_of_plain {fmt} {r : Fields} (L : Lib) (h : PlainRecord fmt r) : Forwardable L fmt r := fun N => by
  obtain ⟨w, _, h, _⟩ := C75_record L fmt N r h
  exact ⟨w, h⟩

/-- The message of a record. -/
def wireOf (r : Fields) : Wire := match messageFor lib fmtS childNames r with | .ok w => w | .error _ => .nil
/-- The messages of both records. -/
def wires2 : List Wire := [wireOf logged, wireOf loggedInfo]
/-- They arrive at the server, which reads them; then its logger's level changes. -/
def serving2 : List LogSrvEv := [.arrive (some (wireOf logged)), .go, .setLevels [10], .arrive (some (wireOf loggedInfo)), .go]

theorem wires2_sent : wires2 = wiresOf ((SenderSt.init childNames []).run lib fmtS logging2).2 := rfl

theorem good_of_plain (lt) {r : Fields} (h : PlainRecord fmtS r) {i : Int} (hl : r.get? "levelno" = some (.int i)) : GoodMessage lt (some (wireOf r)) := by
  obtain ⟨w, d, h1, h2, h3⟩ := C75_record lib fmtS childNames r h
  have hw : wireOf r = w := by simp only [wireOf, h1]
  rw [hw]
  refine ⟨d, h2, fun n => ⟨decide (i < n), ?_⟩⟩
  have := h3.same "levelno" _ (by decide) (by decide) (by decide) (by decide) (by decide) hl
  simp [levelBelow, this]

theorem serving2_good (lt) : ∀ m ∈ arrivedOf serving2, GoodMessage lt m := by
  intro m hm
  have : arrivedOf serving2 = [some (wireOf logged), some (wireOf loggedInfo)] := rfl
  rw [this] at hm
  simp only [List.mem_cons, List.not_mem_nil, or_false] at hm
  rcases hm with rfl | rfl
  · exact good_of_plain lt logged_plain rfl
  · exact good_of_plain lt loggedInfo_plain rfl

example := C75_record lib fmtS childNames logged logged_plain
/-- A list in a list, `n` deep. -/
def nestedList : Nat → Val
  | 0 => .none
  | n + 1 => .list [nestedList n]
theorem nestedList_deep : ∀ n, DeepVal n (nestedList n)
  | 0 => .any
  | n + 1 => .list (nestedList_deep n)
/-- A record with an attribute of its own, nestedList too deep. -/
def loggedDeep : Fields := logged ++ [("tree", nestedList 999)]
example : ∃ e, messageFor lib fmtS childNames loggedDeep = .error e :=
  (C74_refused lib fmtS childNames loggedDeep).2 (by unfold Dict.WF loggedDeep; rw [List.map_append]; decide) "tree" _ (by decide) (by decide) (by decide) (by decide) (by decide) (by rfl) (nestedList_deep 999)
example := C56_order lib fmtS childNames [] logging2 logging2_calm
example := C56_all lib fmtS childNames [] logging2 logging2_calm fun r hr => forwardable_of_plain lib (logging2_plain r hr)
/-- A record that cannot be forwarded, behind one that can. -/
def loggingBad : List SenderEv := [.handle logged, .handle loggedException, .go, .go, .go, .go, .go, .go, .go, .go]
theorem loggingBad_calm : Calm loggingBad := by
  intro e he
  simp only [loggingBad, List.mem_cons, List.not_mem_nil, or_false] at he
  rcases he with rfl | rfl | rfl | rfl | rfl | rfl | rfl | rfl | rfl | rfl <;> trivial
theorem loggingBad_crashes : ∃ e, .crashed loggedException e ∈ ((SenderSt.init childNames []).run lib fmtS loggingBad).2 := by
  have : ((SenderSt.init childNames []).run lib fmtS loggingBad).2 = [.sent [] logged (wireOf logged), .crashed loggedException .typeError] := by rfl
  rw [this]; exact ⟨.typeError, by simp⟩
example := let ⟨e, h⟩ := loggingBad_crashes; C56_stop lib fmtS childNames [] loggingBad loggingBad_calm loggedException e h
example := C55_level (fun _ _ => false) logged 30 20 rfl
example : effectiveLevel [0, 0, 30, 10] = 30 := (C55_effective [0, 0] (by simp)).2 30 [10] (by decide)
example := C55_order (fun _ _ => false) true [30] serving2 (serving2_good _)
example := C55_all (fun _ _ => false) true [30] serving2 (serving2_good _) (by simp [serving2])
example := C55_fixed (fun _ _ => false) true [0, 30] [.arrive (some (wireOf logged)), .go] (by simp)
example := C55_current (fun _ _ => false) true [30] (serving2.take 4) .go
example := C55_stop (fun _ _ => false) (LogSrvSt.run (fun _ _ => false) { filter := true, levels := [30] } [.arrive (some (wireOf logged)), .stop]).1 (by rfl) [.go, .go]
example := C75_delivered lib fmtS childNames [] logging2 logging2_calm logging2_plain
  (fun r hr => by
    have : handledOf logging2 = [logged, loggedInfo] := rfl
    rw [this] at hr
    simp only [List.mem_cons, List.not_mem_nil, or_false] at hr
    rcases hr with rfl | rfl
    · exact ⟨30, rfl⟩
    · exact ⟨20, rfl⟩)
  (fun _ _ => false) true [30] serving2 (by rw [← wires2_sent]; exact List.prefix_refl _)
example := fun E => C73_names_partial lib fmtS childNames logged logged_plain "child" "worker" 7 rfl rfl rfl E 1 100 30 7
example := fun E => C73_fails lib fmtS childNames logged logged_plain (by rfl) E 1 100 30 7
/-- The thread holds a record that cannot be forwarded. -/
def atBad : SenderSt := ((SenderSt.init childNames []).run lib fmtS [.handle loggedException, .handle logged, .go, .go]).1
example := C74_fails lib fmtS atBad loggedException .typeError (by rfl) ⟨_, rfl⟩ (by rfl) (by rfl) [.go, .go, .go]
example := C74_dead lib fmtS (atBad.step lib fmtS .go).1 (Or.inl (by rfl)) [.handle logged, .go, .go]
/-- The thread is about to send a message. -/
def atSend : SenderSt := ((SenderSt.init childNames []).run lib fmtS [.handle logged, .go, .go, .go]).1
example := C74_fails_reconnect lib fmtS atSend logged (wireOf logged) 0 (by rfl) (by rfl) (by rfl) [9] [.handle loggedInfo, .go, .go, .go, .go]
example := C76_once [.setAddress [1], .startServer [2], .getAddress] [2] [3] (by simp)
example := C74_close lib [.go, .go, .go] (by simp)
example := C56_closed lib fmtS [.handle logged, .go, .go, .go, .go, .closePut, .go] [.handle loggedInfo, .go, .go] (SenderSt.init childNames []) (by
  have : ((SenderSt.init childNames []).run lib fmtS [.handle logged, .go, .go, .go, .go, .closePut, .go]).2 = [.sent [] logged (wireOf logged), .ended] := by rfl
  rw [this]; simp)

end Ex

end Verif
