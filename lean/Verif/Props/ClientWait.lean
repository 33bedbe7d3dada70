import Verif.Model.Wait
import Verif.Props.Client
/-!
# C32, C33: polling and waiting
-/
namespace Verif

/-! ## C32 -/

/-- **C32 does not hold**: while nothing but `done()` is called, a pending future stays pending, however often it is asked
and whatever has arrived. -/
theorem C32_done_never_reads (k : Nat) (c : Cli) (inbox : List Wire) (hp : c.fut k = some .pending) :
    ∀ n, Cli.polls k (c, inbox) n = List.replicate n false
  | 0 => rfl
  | n + 1 => by
    have : Cli.done c k = false := by simp only [Cli.fut] at hp; simp [Cli.done, hp]
    simp only [Cli.polls, Cli.poll, this, List.replicate_succ]
    rw [C32_done_never_reads k c inbox hp n]

theorem receive_serverMsg {P : CliEnv} {c : Cli} {w d} (ho : c.sockOpen = true) (hl : c.reads P w d) (hm : ServerMsg d) :
    (c.receive P w).2 = .ok () := by
  unfold Cli.receive
  rw [if_neg (by simp [ho]), hl]
  simp only
  unfold Cli.processMsg
  simp only
  rcases hm with h | ⟨h1, ⟨i, h2⟩, ⟨v, h3⟩, h4⟩
  · rw [field_ok.2 (show lookupStr d "action" = some (.str "disconnect") from h)]
    rfl
  · rw [field_ok.2 h1, field_ok.2 h2]
    simp only [bind, Except.bind, reqKey]
    split
    · rfl
    · split
      · rfl
      · rcases h4 with h4 | ⟨a, b, h4 | h4⟩
        · rw [field_ok.2 h4, field_ok.2 h3]
          simp only
          split <;> rfl
        · rw [field_ok.2 h4]; rfl
        · rw [field_ok.2 h4]; rfl

theorem receiveAll_run (K : Codec) (P : CliEnv) : ∀ (ws : List Wire) (c : Cli), c.sockOpen = true →
    (∀ w ∈ ws, ∃ d, c.reads P w d ∧ ServerMsg d) →
    c.receiveAll P ws = ((c.run K (ws.map (CEv.recv P))).1, [], .ok ())
  | [], c, ho, _ => by simp [Cli.receiveAll, ho, Cli.run]
  | w :: ws, c, ho, h => by
    obtain ⟨d, h1, h2⟩ := h w (by simp)
    have h3 := receive_serverMsg ho h1 h2
    obtain ⟨-, hs, -, hso, -⟩ := receive_const P c w
    have ih := receiveAll_run K P ws (c.receive P w).1 (hso.trans ho) (by
      intro w' hw'
      obtain ⟨d', h4, h5⟩ := h w' (List.mem_cons_of_mem _ hw')
      exact ⟨d', by rw [Cli.reads, hs]; exact h4, h5⟩)
    have hr : (c.run K ((w :: ws).map (CEv.recv P))).1 = ((c.receive P w).1.run K (ws.map (CEv.recv P))).1 := rfl
    rw [hr, ← ih]
    simp only [Cli.receiveAll]
    generalize c.receive P w = x at *
    obtain ⟨c', r⟩ := x
    simp only at h3; subst h3
    rfl

theorem run_append_cli (K : Codec) : ∀ (a b : List CEv) (c : Cli), (c.run K (a ++ b)).1 = ((c.run K a).1.run K b).1
  | [], _, _ => rfl
  | e :: a, b, c => run_append_cli K a b (c.step K e).1

theorem run_sockOpen (K : Codec) (P : CliEnv) : ∀ (ws : List Wire) (c : Cli), c.sockOpen = true → (c.run K (ws.map (CEv.recv P))).1.sockOpen = true
  | [], _, h => h
  | w :: ws, c, h => run_sockOpen K P ws (c.receive P w).1 ((receive_const P c w).2.2.2.1.trans h)

/-- **C32, what holds**: whenever the client does read its socket (`disconnected()`, or waiting for any result), a reply
that has arrived is seen: if the socket holds only messages a server sends and among them a reply to request `k`, whose
future is pending, then `disconnected()` empties the socket and `done()` is True afterwards. Missing: that `done()` itself
reads, which is false. -/
theorem C32_reading_sees_reply_partial (K : Codec) (name : Bytes) (ser : Ser) (es : List CEv) (P : CliEnv) (ws1 ws2 : List Wire)
    (w : Wire) (k : Nat) (c : Cli) (hc : c = ((Cli.init name ser).run K es).1) (hm : ServerMsgs (Cli.init name ser) es)
    (ho : c.sockOpen = true) (hd : c.disconnected = false) (hp : c.fut k = some .pending)
    (hall : ∀ w' ∈ ws1 ++ w :: ws2, ∃ d, c.reads P w' d ∧ ServerMsg d) (hk : ∃ d, c.reads P w d ∧ IsReply P d k) :
    ∃ c', c.checkDisconnected P (ws1 ++ w :: ws2) = (c', [], .ok c'.disconnected) ∧ c'.done k = true := by
  have hi : c.Inv := hc ▸ run_inv (K := K) es (Cli.inv_init name ser)
  have ht : c.Tracked := hc ▸ tracked_run es (by intro k h; simp [Cli.fut, Cli.init] at h) hm
  have hr := receiveAll_run K P _ c ho hall
  refine ⟨(c.run K ((ws1 ++ w :: ws2).map (CEv.recv P))).1, by simp [Cli.checkDisconnected, hd, hr], ?_⟩
  have nodrop : ∀ l : List Wire, CEv.drop k ∉ l.map (CEv.recv P) := by simp
  have hsm : ServerMsgs c (ws1.map (CEv.recv P)) := by
    intro P' w' v h1 h2
    simp only [List.mem_map, CEv.recv.injEq] at h1
    obtain ⟨a, ha, rfl, rfl⟩ := h1
    obtain ⟨d, hd1, hd2⟩ := hall a (by simp [ha])
    rw [Cli.reads] at hd1
    rw [hd1] at h2
    simp only [Except.ok.injEq] at h2
    exact ⟨d, h2.symm, hd2⟩
  have hi1 := run_inv (K := K) (ws1.map (CEv.recv P)) hi
  have ht1 := tracked_run (K := K) (ws1.map (CEv.recv P)) ht hsm
  have ho1 := run_sockOpen K P ws1 c ho
  have hser := (run_const K (ws1.map (CEv.recv P)) c).2.1
  have hex : ∀ (l : List Wire) (c : Cli), c.Inv → (∃ f, c.fut k = some f) → ∃ f, (c.run K (l.map (CEv.recv P))).1.fut k = some f := by
    intro l
    induction l with
    | nil => intro c _ h; exact h
    | cons a l ih =>
      intro c hi ⟨f, hf⟩
      refine ih (c.step K (.recv P a)).1 (step_inv _ hi) ?_
      rcases fut_step (K := K) hi (.recv P a) k hf with h | ⟨h, _⟩ | ⟨_, _, _, _, _, _, ⟨f', _, _, h⟩ | ⟨_, h⟩⟩
      · exact ⟨_, h⟩
      · simp at h
      · exact ⟨_, h⟩
      · exact ⟨_, h⟩
  obtain ⟨f1, hf1⟩ := hex ws1 c hi ⟨_, hp⟩
  have hdone : ∀ (c : Cli) f, c.fut k = some f → f ≠ .pending → c.done k = true := by
    intro c f h1 h2
    simp only [Cli.fut] at h1
    simp only [Cli.done, h1]
  rw [List.map_append, run_append_cli, List.map_cons]
  have hstep : ∃ f, ((c.run K (ws1.map (CEv.recv P))).1.step K (.recv P w)).1.fut k = some f ∧ f ≠ .pending := by
    by_cases hfp : f1 = .pending
    · subst hfp
      obtain ⟨b, hb⟩ := ht1 k hf1
      obtain ⟨d, hd1, hd2⟩ := hk
      obtain ⟨d', hd1', hd2'⟩ := hall w (by simp)
      have : d' = d := by
        rw [Cli.reads] at hd1 hd1'; rw [hd1] at hd1'; simpa using hd1'.symm
      subst this
      obtain ⟨f, hf⟩ := serverMsg_says hd2' hd2
      refine ⟨f, ?_, says_done hf⟩
      have hrd : (c.run K (ws1.map (CEv.recv P))).1.reads P w d' := by rw [Cli.reads, hser]; exact hd1
      generalize (c.run K (ws1.map (CEv.recv P))).1 = c1 at *
      have := C27_reply_sets_inv (K := K) hi1 ho1 hrd hd2 hf hb
      exact this
    · refine ⟨f1, ?_, hfp⟩
      rcases fut_step (K := K) hi1 (.recv P w) k hf1 with h | ⟨h, _⟩ | ⟨h, _⟩
      · exact h
      · simp at h
      · exact absurd h hfp
  obtain ⟨f, hf, hfn⟩ := hstep
  exact hdone _ f (fut_stays (K := K) (ws2.map (CEv.recv P)) (step_inv _ hi1) hf hfn (nodrop ws2)) hfn

/-! ## C33 -/

/-- **C33** A TimeoutError of `result(timeout=T)` is raised at a time later than the start plus `T` minus one
millisecond, unless decoding a message, a request served meanwhile or a Qt event raised that TimeoutError. -/
theorem C33_not_early (K : Codec) (k : Nat) (start : Int) (T : Int) : ∀ (ts : List Turn) (c : Cli),
    (∀ t ∈ ts, t.Fair start (some T)) →
    (∀ P w c' now after, (.plain now (some (P, w)) after ∈ ts ∨ .readable now P w after ∈ ts) → (Cli.receive P c' w).2 ≠ .error .timeoutError) →
    (∀ now n r g after, .qt now n r g after ∈ ts → r ≠ .error .timeoutError) →
    (∀ now n r after, .serve now n r after ∈ ts → r ≠ .error .timeoutError) →
    ∀ τ, (c.waitFor K k start (some T) ts).2.1 = .raised .timeoutError τ → start + T - msec < τ
  | [], c, _, _, _, _, τ, h => by
    simp only [Cli.waitFor] at h; split at h <;> simp at h
  | t :: ts, c, hf, h1, h2, h3, τ, h => by
    have ih := fun c => C33_not_early K k start T ts c (fun t ht => hf t (List.mem_cons_of_mem _ ht))
      (fun P w c' n a hm => h1 P w c' n a (hm.imp (List.mem_cons_of_mem _) (List.mem_cons_of_mem _)))
      (fun n x r g a hm => h2 n x r g a (List.mem_cons_of_mem _ hm)) (fun n x r a hm => h3 n x r a (List.mem_cons_of_mem _ hm)) τ
    obtain ⟨hs, hna, hfair⟩ := hf t (by simp)
    simp only [Cli.waitFor] at h
    split at h
    · simp at h
    · split at h
      · rename_i hlt
        simp only [expired, decide_eq_true_eq] at hlt
        simp only [Waited.raised.injEq, true_and] at h
        subst h; simp only [msec]; omega
      · split at h
        · exact ih _ h
        · rename_i hge _ c' e htn
          simp only [Waited.raised.injEq] at h
          obtain ⟨rfl, rfl⟩ := h
          simp only [expired, Bool.not_eq_true, decide_eq_false_iff_not] at hge
          cases t with
          | plain now got after =>
            cases got with
            | none =>
              obtain ⟨T', hT, hw⟩ := hfair
              simp only [Option.some.injEq] at hT; subst hT
              simp only [Turn.after, rcvTimeo, msec] at *
              have := Int.emod_nonneg (T - (now - start)) (b := 1000000) (by decide)
              have := Int.emod_lt_of_pos (T - (now - start)) (b := 1000000) (by decide)
              have := Int.mul_ediv_add_emod (T - (now - start)) 1000000
              omega
            | some x =>
              obtain ⟨P, w⟩ := x
              simp only [Cli.turn] at htn
              exact absurd (by rw [htn]) (h1 P w c now after (.inl (by simp)))
          | qt now nested r got after =>
            simp only [Cli.turn] at htn
            cases r with
            | error e =>
              simp only [Prod.mk.injEq, Except.error.injEq] at htn
              exact absurd (congrArg Except.error htn.2) (h2 now nested _ got after (by simp))
            | ok u =>
              cases got with
              | none => simp at htn
              | some x =>
                simp only at htn
                split at htn
                · simp at htn
                · rename_i hx
                  exact absurd htn (by intro h; exact hx _ h)
          | readable now P w after =>
            simp only [Cli.turn] at htn
            exact absurd (by rw [htn]) (h1 P w c now after (.inr (by simp)))
          | serve now nested r after =>
            simp only [Cli.turn, Prod.mk.injEq] at htn
            exact absurd htn.2 (h3 now nested r after (by simp))
          | idle now after => simp [Cli.turn] at htn

/-- **C33** While nothing comes, `result(timeout=T)` gives up at the first reading of the clock later than the start plus `T`, and until then it waits. -/
theorem C33_nothing_comes (K : Codec) (k : Nat) (start T : Int) (c : Cli) (h : c.done k = false) (l : List (Int × Int)) :
    (c.waitFor K k start (some T) (l.map fun x => .idle x.1 x.2)).1 = c ∧
    (c.waitFor K k start (some T) (l.map fun x => .idle x.1 x.2)).2.1 =
      match l.find? fun x => decide (start + T < x.1) with
      | some x => .raised .timeoutError x.1
      | none => .waiting := by
  induction l with
  | nil => simp [Cli.waitFor, h]
  | cons x l ih =>
    have he : expired start (some T) x.1 = decide (start + T < x.1) := by
      simp only [expired]; congr 1; apply propext; omega
    simp only [List.map_cons, Cli.waitFor, h, Turn.now, he, Cli.turn, List.find?_cons]
    by_cases hx : start + T < x.1
    · simp [hx]
    · simp [hx, ih]

/-- **C33** Once the future is done nothing more happens: the loop is left before the next turn, so no TimeoutError is raised
however much time has passed, and `result` gives what the future holds. -/
theorem C33_done_returns (K : Codec) (k : Nat) (start : Int) (timeout : Option Int) (ts : List Turn) (c : Cli)
    (hd : c.done k = true) :
    c.waitFor K k start timeout ts = (c, .returned, ts) ∧
    (c.result K k start timeout ts).2.1 = (match c.fut k with
      | some (.value v) => some (.value v)
      | some (.remote a b) => some (.remoteCall a b)
      | some .gone => some .runtimeError
      | _ => none) := by
  have h : c.waitFor K k start timeout ts = (c, .returned, ts) := by
    cases ts <;> simp [Cli.waitFor, hd]
  exact ⟨h, by
    simp only [Cli.result, h, Cli.fut]
    cases c.futs.get? k with
    | none => rfl
    | some f => cases f <;> rfl⟩

/-- **C33** The loop is left normally only when the future is done, and at the first turn's end at which it is: with any
shorter sequence of turns the client would still be waiting. -/
theorem C33_returns_at_once (K : Codec) (k : Nat) (start : Int) (timeout : Option Int) : ∀ (ts : List Turn) (c c' : Cli) (rest : List Turn),
    c.waitFor K k start timeout ts = (c', .returned, rest) →
    c'.done k = true ∧ ∃ used, ts = used ++ rest ∧ ∀ pre post, used = pre ++ post → post ≠ [] →
      (c.waitFor K k start timeout pre).2.1 = .waiting
  | [], c, c', rest, h => by
    simp only [Cli.waitFor, Prod.mk.injEq] at h
    obtain ⟨rfl, h2, rfl⟩ := h
    split at h2
    · rename_i hd
      refine ⟨hd, [], rfl, ?_⟩
      intro pre post h3 h4
      simp only [List.nil_eq, List.append_eq_nil_iff] at h3
      exact absurd h3.2 h4
    · simp at h2
  | t :: ts, c, c', rest, h => by
    simp only [Cli.waitFor] at h
    split at h
    · rename_i hd
      simp only [Prod.mk.injEq, true_and] at h
      obtain ⟨rfl, rfl⟩ := h
      refine ⟨hd, [], rfl, ?_⟩
      intro pre post h3 h4
      simp only [List.nil_eq, List.append_eq_nil_iff] at h3
      exact absurd h3.2 h4
    · split at h
      · simp at h
      · split at h
        · rename_i hnd htime _ c1 htn
          obtain ⟨hd, used, hu, hpre⟩ := C33_returns_at_once K k start timeout ts c1 c' rest h
          refine ⟨hd, t :: used, by rw [hu]; rfl, ?_⟩
          intro pre post h3 h4
          cases pre with
          | nil => simp [Cli.waitFor, hnd]
          | cons t' pre =>
            simp only [List.cons_append, List.cons.injEq] at h3
            obtain ⟨rfl, h3⟩ := h3
            simp only [Cli.waitFor, hnd]
            simp only [Bool.false_eq_true, if_false]
            rw [if_neg htime, htn]
            exact hpre pre post h3 h4
        · simp at h

/-- a turn in time in which a message a server sends is read -/
def Turn.Reads (start : Int) (timeout : Option Int) (c : Cli) (t : Turn) (P : CliEnv) (w : Wire) : Prop :=
  expired start timeout t.now = false ∧ (∃ d, c.reads P w d ∧ ServerMsg d) ∧
  ((∃ n a, t = .plain n (some (P, w)) a) ∨ ∃ n a, t = .readable n P w a)

theorem turn_reads {K : Codec} {start timeout} {c : Cli} {t P w} (ho : c.sockOpen = true) (h : t.Reads start timeout c P w) :
    c.turn K t = ((c.step K (.recv P w)).1, .ok ()) := by
  obtain ⟨_, ⟨d, hr, hm⟩, h⟩ := h
  have h2 := receive_serverMsg ho hr hm
  have : c.turn K t = c.receive P w := by rcases h with ⟨n, a, rfl⟩ | ⟨n, a, rfl⟩ <;> rfl
  rw [this]
  generalize hx : c.receive P w = x at h2
  obtain ⟨c', r⟩ := x
  simp only at h2; subst h2
  simp [Cli.step, hx]

theorem reply_in_time {K : Codec} {k : Nat} {start : Int} {timeout : Option Int} {P : CliEnv} {w : Wire} {t : Turn} {post : List Turn} :
    ∀ (pre : List (Turn × CliEnv × Wire)) {c : Cli}, c.Inv → c.Tracked → c.sockOpen = true → (∃ f, c.fut k = some f) →
    (∀ x ∈ pre, x.1.Reads start timeout c x.2.1 x.2.2) → t.Reads start timeout c P w → (∃ d, c.reads P w d ∧ IsReply P d k) →
    ∃ c' rest, c.waitFor K k start timeout (pre.map (·.1) ++ t :: post) = (c', .returned, rest) ∧ c'.done k = true ∧
      ∃ used, rest = used ++ post := by
  intro pre
  induction pre with
  | nil =>
    intro c hi ht ho hfut _ hr hk
    by_cases hd : c.done k = true
    · exact ⟨c, t :: post, by simp [Cli.waitFor, hd], hd, [t], rfl⟩
    · obtain ⟨f, hf⟩ := hfut
      have hp : f = .pending := by
        cases f <;> simp_all [Cli.fut, Cli.done]
      subst hp
      obtain ⟨b, hb⟩ := ht k hf
      obtain ⟨d, hd1, hd2⟩ := hk
      have hr' := hr
      obtain ⟨hx, ⟨d', hd1', hd2'⟩, _⟩ := hr
      have : d' = d := by rw [Cli.reads] at hd1 hd1'; rw [hd1] at hd1'; simpa using hd1'.symm
      subst this
      obtain ⟨f, hs⟩ := serverMsg_says hd2' hd2
      have hset := C27_reply_sets_inv (K := K) hi ho hd1 hd2 hs hb
      have hdone : (c.step K (.recv P w)).1.done k = true := by
        have := says_done hs
        simp only [Cli.fut] at hset
        simp only [Cli.done, hset]
      refine ⟨(c.step K (.recv P w)).1, post, ?_, hdone, [], rfl⟩
      simp only [List.map_nil, List.nil_append, Cli.waitFor, hd, hx, Bool.false_eq_true, if_false]
      rw [turn_reads (K := K) ho hr']
      exact (C33_done_returns K k start timeout post _ hdone).1
  | cons x pre ih =>
    intro c hi ht ho hfut hall hr hk
    by_cases hd : c.done k = true
    · exact ⟨c, x.1 :: (pre.map (·.1) ++ t :: post), by simp only [List.map_cons, List.cons_append, Cli.waitFor, hd, if_true], hd, x.1 :: (pre.map (·.1) ++ [t]), by simp⟩
    · have hx := hall x (by simp)
      obtain ⟨hsm1, ⟨d, hsm2, hsm3⟩, hsm4⟩ := hx
      obtain ⟨_, hser, _, hso, _⟩ := receive_const x.2.1 c x.2.2
      have tr : ∀ {t' : Turn} {P' w'}, t'.Reads start timeout c P' w' → t'.Reads start timeout (c.step K (.recv x.2.1 x.2.2)).1 P' w' := by
        intro t' P' w' ⟨h1, ⟨d, h2, h3⟩, h4⟩
        exact ⟨h1, ⟨d, by rw [Cli.reads]; show (c.receive x.2.1 x.2.2).1.ser.loads _ _ = _; rw [hser]; exact h2, h3⟩, h4⟩
      have htr : (c.step K (.recv x.2.1 x.2.2)).1.Tracked := by
        refine tracked_step _ ht ?_
        intro P' w' v h1 h2
        simp only [List.mem_singleton, CEv.recv.injEq] at h1
        obtain ⟨rfl, rfl⟩ := h1
        rw [Cli.reads] at hsm2; rw [hsm2] at h2
        simp only [Except.ok.injEq] at h2
        exact ⟨d, h2.symm, hsm3⟩
      have hf' : ∃ f, (c.step K (.recv x.2.1 x.2.2)).1.fut k = some f := by
        obtain ⟨f, hf⟩ := hfut
        rcases fut_step (K := K) hi (.recv x.2.1 x.2.2) k hf with h | ⟨h, _⟩ | ⟨_, _, _, _, _, _, ⟨f', _, _, h⟩ | ⟨_, h⟩⟩
        · exact ⟨_, h⟩
        · simp at h
        · exact ⟨_, h⟩
        · exact ⟨_, h⟩
      have hk' : ∃ d, (c.step K (.recv x.2.1 x.2.2)).1.reads P w d ∧ IsReply P d k := by
        obtain ⟨d, h1, h2⟩ := hk
        exact ⟨d, by rw [Cli.reads]; show (c.receive x.2.1 x.2.2).1.ser.loads _ _ = _; rw [hser]; exact h1, h2⟩
      obtain ⟨c', rest, h1, h2, h3⟩ := ih (step_inv _ hi) htr (hso.trans ho) hf' (fun y hy => tr (hall y (List.mem_cons_of_mem _ hy))) (tr hr) hk'
      refine ⟨c', rest, ?_, h2, h3⟩
      simp only [List.map_cons, List.cons_append, Cli.waitFor, hd, hsm1, Bool.false_eq_true, if_false]
      rw [turn_reads (K := K) ho (hall x (by simp))]
      exact h1

/-- **C33** If the reply is read in time, after any number of other messages from the server read in time, the wait ends
normally with the future done, at the latest with the turn that read the reply. -/
theorem C33_reply_in_time (K : Codec) (name : Bytes) (ser : Ser) (es : List CEv) (k : Nat) (start : Int) (timeout : Option Int)
    (c : Cli) (hc : c = ((Cli.init name ser).run K es).1) (hm : ServerMsgs (Cli.init name ser) es) (ho : c.sockOpen = true)
    (hp : c.fut k = some .pending) (pre : List (Turn × CliEnv × Wire)) (t : Turn) (post : List Turn) (P : CliEnv) (w : Wire)
    (hpre : ∀ x ∈ pre, x.1.Reads start timeout c x.2.1 x.2.2) (ht : t.Reads start timeout c P w)
    (hk : ∃ d, c.reads P w d ∧ IsReply P d k) :
    ∃ c' rest, c.waitFor K k start timeout (pre.map (·.1) ++ t :: post) = (c', .returned, rest) ∧ c'.done k = true ∧
      ∃ used, rest = used ++ post :=
  reply_in_time pre (hc ▸ run_inv (K := K) es (Cli.inv_init name ser))
    (hc ▸ tracked_run es (by intro k h; simp [Cli.fut, Cli.init] at h) hm) ho ⟨_, hp⟩ hpre ht hk

end Verif
