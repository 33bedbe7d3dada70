import Verif.Props.ServerExample
import Verif.Model.Qt
/-!
# C65, C66, C82: the Qt relay and the choice of a binding
-/
namespace Verif

/-! ## Specification of the relay -/

/-- What arrived, in order. -/
def arrivedIn (es : List RelayEv) : List (List Bytes) := es.filterMap fun | .arrive p => some p | _ => none

/-- What the Qt thread gave to the relay, in order (`stop` included: it is a message like the others). -/
def producedIn (es : List RelayEv) : List (Bytes × Wire) := es.filterMap fun | .result n d => some (n, d) | .stop => some (stopName, .bin []) | _ => none

/-- What was sent to clients. -/
def relaySent (os : List RelayOut) : List (Bytes × Wire) := os.filterMap fun | .sent n d => some (n, d) | _ => none

/-- What was processed in the Qt thread. -/
def relayProcessed (os : List RelayOut) : List (Bytes × Msg) := os.filterMap fun | .process n m => some (n, m) | _ => none

/-- The message can be read. -/
def Readable (H : Heap) (p : List Bytes) : Prop := ∃ m, readOne H p = .ok m

theorem relay_run_append (H : Heap) (es es' : List RelayEv) (s : RelaySt) :
    s.run H (es ++ es') = (((s.run H es).1.run H es').1, (s.run H es).2 ++ ((s.run H es).1.run H es').2) := by
  induction es generalizing s with
  | nil => rfl
  | cons e es ih => simp only [List.cons_append, RelaySt.run, ih, List.append_assoc]

theorem relay_not_stop (name : Bytes) : ¬ (PyText.bytes name = .str "STOP") := by simp

/-- **C65** (results) For every history: what was sent so far, followed by what waits in the relay, is what the Qt thread produced: nothing lost, doubled, changed, or out of order. -/
theorem C65_results (H : Heap) (es : List RelayEv) (s : RelaySt) : relaySent (s.run H es).2 ++ (s.run H es).1.ret = s.ret ++ producedIn es := by
  induction es generalizing s with
  | nil => simp [RelaySt.run, relaySent, producedIn]
  | cons e es ih =>
    have hs : relaySent (s.step H e).2 ++ (s.step H e).1.ret = s.ret ++ producedIn [e] := by
      cases e with
      | arrive p => simp [RelaySt.step, relaySent, producedIn]
      | result n d => simp [RelaySt.step, relaySent, producedIn]
      | stop => simp [RelaySt.step, relaySent, producedIn]
      | go =>
        obtain ⟨rpc, ret, sig, pc⟩ := s
        simp only [RelaySt.step, RelaySt.go]
        cases pc with
        | poll => simp [relaySent, producedIn]
        | polled a b =>
          cases a with
          | false => simp [relaySent, producedIn]
          | true => cases ret <;> simp [relaySent, producedIn]
        | second b =>
          cases b with
          | false => simp [relaySent, producedIn]
          | true =>
            cases rpc with
            | nil => simp [relaySent, producedIn]
            | cons p r => cases h : readOne H p <;> simp [h, relaySent, producedIn]
        | stopped => simp [relaySent, producedIn]
        | dead e => simp [relaySent, producedIn]
      | deliver =>
        obtain ⟨rpc, ret, sig, pc⟩ := s
        cases sig <;> simp [RelaySt.step, relaySent, producedIn]
    have hp : producedIn (e :: es) = producedIn [e] ++ producedIn es := by
      simp only [producedIn]
      rw [← List.filterMap_append]
      rfl
    have ho : relaySent ((s.step H e).2 ++ ((s.step H e).1.run H es).2) = relaySent (s.step H e).2 ++ relaySent ((s.step H e).1.run H es).2 := by
      simp [relaySent]
    show relaySent ((s.step H e).2 ++ ((s.step H e).1.run H es).2) ++ ((s.step H e).1.run H es).1.ret = _
    rw [ho, hp, List.append_assoc, ih, ← List.append_assoc, hs, List.append_assoc]

/-- Whether the thread has ended. -/
def RelayPc.over : RelayPc → Bool
  | .stopped | .dead _ => true
  | _ => false

/-- What one event does to the requests. -/
theorem relay_requests_step (H : Heap) (s : RelaySt) (e : RelayEv) : ∃ took l, relayProcessed (s.step H e).2 ++ (s.step H e).1.signals = s.signals ++ l ∧
    ((took.map (readOne H) = l.map .ok ∧ s.rpc ++ arrivedIn [e] = took ++ (s.step H e).1.rpc ∧ (s.step H e).1.pc.over = s.pc.over ∧ (s.pc.over = true → took = [])) ∨
     (s.pc.over = false ∧ l = [] ∧ ∃ bad x, took = [bad] ∧ readOne H bad = .error x ∧ s.rpc ++ arrivedIn [e] = bad :: (s.step H e).1.rpc ∧ (s.step H e).1.pc = .dead x)) := by
  cases e with
  | arrive p => exact ⟨[], [], by simp [RelaySt.step, relayProcessed], .inl ⟨rfl, by simp [RelaySt.step, arrivedIn], rfl, fun _ => rfl⟩⟩
  | result n d => exact ⟨[], [], by simp [RelaySt.step, relayProcessed], .inl ⟨rfl, by simp [RelaySt.step, arrivedIn], rfl, fun _ => rfl⟩⟩
  | stop => exact ⟨[], [], by simp [RelaySt.step, relayProcessed], .inl ⟨rfl, by simp [RelaySt.step, arrivedIn], rfl, fun _ => rfl⟩⟩
  | deliver =>
    obtain ⟨rpc, ret, sig, pc⟩ := s
    cases sig with
    | nil => exact ⟨[], [], by simp [RelaySt.step, relayProcessed], .inl ⟨rfl, by simp [RelaySt.step, arrivedIn], rfl, fun _ => rfl⟩⟩
    | cons x sig => exact ⟨[], [], by simp [RelaySt.step, relayProcessed], .inl ⟨rfl, by simp [RelaySt.step, arrivedIn], rfl, fun _ => rfl⟩⟩
  | go =>
    obtain ⟨rpc, ret, sig, pc⟩ := s
    simp only [RelaySt.step, RelaySt.go]
    cases pc with
    | poll => exact ⟨[], [], by simp [relayProcessed], .inl ⟨rfl, by simp [arrivedIn], rfl, fun _ => rfl⟩⟩
    | polled a b =>
      cases a with
      | false => exact ⟨[], [], by simp [relayProcessed], .inl ⟨rfl, by simp [arrivedIn], rfl, fun _ => rfl⟩⟩
      | true =>
        cases ret with
        | nil => exact ⟨[], [], by simp [relayProcessed], .inl ⟨rfl, by simp [arrivedIn], rfl, fun _ => rfl⟩⟩
        | cons x r => exact ⟨[], [], by simp [relayProcessed], .inl ⟨rfl, by simp [arrivedIn], by simp [RelayPc.over], fun _ => rfl⟩⟩
    | second b =>
      cases b with
      | false => exact ⟨[], [], by simp [relayProcessed], .inl ⟨rfl, by simp [arrivedIn], rfl, fun _ => rfl⟩⟩
      | true =>
        cases rpc with
        | nil => exact ⟨[], [], by simp [relayProcessed], .inl ⟨rfl, by simp [arrivedIn], rfl, fun _ => rfl⟩⟩
        | cons p r =>
          cases h : readOne H p with
          | error x => exact ⟨[p], [], by simp [relayProcessed, h], .inr ⟨rfl, rfl, p, x, rfl, h, by simp [arrivedIn, h], by simp [h]⟩⟩
          | ok m => exact ⟨[p], [m], by simp [relayProcessed, h], .inl ⟨by simp [h], by simp [arrivedIn, h], by simp [h, RelayPc.over], by simp [RelayPc.over]⟩⟩
    | stopped => exact ⟨[], [], by simp [relayProcessed], .inl ⟨rfl, by simp [arrivedIn], rfl, fun _ => rfl⟩⟩
    | dead e => exact ⟨[], [], by simp [relayProcessed], .inl ⟨rfl, by simp [arrivedIn], rfl, fun _ => rfl⟩⟩

/-- What any history does to the requests, from any state. -/
theorem relay_requests (H : Heap) (es : List RelayEv) : ∀ s : RelaySt, ∃ took l, relayProcessed (s.run H es).2 ++ (s.run H es).1.signals = s.signals ++ l ∧
    ((took.map (readOne H) = l.map .ok ∧ s.rpc ++ arrivedIn es = took ++ (s.run H es).1.rpc ∧ (s.run H es).1.pc.over = s.pc.over ∧ (s.pc.over = true → took = [])) ∨
     (s.pc.over = false ∧ took.map (readOne H) = l.map .ok ∧ ∃ bad x, readOne H bad = .error x ∧ s.rpc ++ arrivedIn es = took ++ bad :: (s.run H es).1.rpc ∧ (s.run H es).1.pc.over = true)) := by
  induction es with
  | nil => exact fun s => ⟨[], [], by simp [RelaySt.run, relayProcessed], .inl ⟨rfl, by simp [RelaySt.run, arrivedIn], rfl, fun _ => rfl⟩⟩
  | cons e es ih =>
    intro s
    obtain ⟨t1, l1, h1, h1'⟩ := relay_requests_step H s e
    obtain ⟨t2, l2, h2, h2'⟩ := ih (s.step H e).1
    have ho : relayProcessed (s.run H (e :: es)).2 = relayProcessed (s.step H e).2 ++ relayProcessed ((s.step H e).1.run H es).2 := by
      simp [relayProcessed, RelaySt.run]
    have hr : (s.run H (e :: es)).1 = ((s.step H e).1.run H es).1 := rfl
    have ha : arrivedIn (e :: es) = arrivedIn [e] ++ arrivedIn es := by
      simp only [arrivedIn]
      rw [← List.filterMap_append]
      rfl
    rw [ho, hr, ha]
    refine ⟨?_, l1 ++ l2, by rw [List.append_assoc, h2, ← List.append_assoc, h1, List.append_assoc], ?_⟩
    · exact if (s.pc.over = false ∧ (s.step H e).1.pc.over = true) then [] else t1 ++ t2
    · rcases h1' with ⟨a1, a2, a3, a4⟩ | ⟨b0, b1, bad, x, b2, b3, b4, b5⟩
      · rw [if_neg (by rw [a3]; simp)]
        rcases h2' with ⟨c1, c2, c3, c4⟩ | ⟨c0, c1, bad, x, c2, c3, c4⟩
        · refine .inl ⟨by rw [List.map_append, List.map_append, a1, c1], ?_, by rw [c3, a3], fun ho => ?_⟩
          · rw [← List.append_assoc, a2, List.append_assoc, c2, List.append_assoc]
          · rw [a4 ho, c4 (by rw [a3]; exact ho)]; rfl
        · refine .inr ⟨by rw [← a3]; exact c0, by rw [List.map_append, List.map_append, a1, c1], bad, x, c2, ?_, c4⟩
          rw [← List.append_assoc, a2, List.append_assoc, c3, List.append_assoc]
      · rw [b5] at h2'
        rw [if_pos ⟨b0, by rw [b5]; rfl⟩]
        rcases h2' with ⟨c1, c2, c3, c4⟩ | ⟨c0, -⟩
        · have ht := c4 rfl
          subst ht b1
          have hl2 : l2 = [] := by
            cases l2 with
            | nil => rfl
            | cons x l => simp at c1
          subst hl2
          refine .inr ⟨b0, rfl, bad, x, b3, ?_, by rw [c3]; rfl⟩
          rw [← List.append_assoc, b4, List.cons_append, c2]
          rfl
        · cases c0

/-- **C65** (requests) For every history: what the Qt thread has processed, followed by the signals on their way, are the first messages that arrived, decoded, in order, each once;
the rest waits in the socket, unless a message that cannot be read has ended the thread: then everything after it is stuck. -/
theorem C65_requests (H : Heap) (es : List RelayEv) : ∃ took l rest, arrivedIn es = took ++ rest ∧ took.map (readOne H) = l.map .ok ∧
    relayProcessed (RelaySt.run H {} es).2 ++ (RelaySt.run H {} es).1.signals = l ∧
    (rest = (RelaySt.run H {} es).1.rpc ∨ ∃ bad, ¬ Readable H bad ∧ rest = bad :: (RelaySt.run H {} es).1.rpc) := by
  obtain ⟨took, l, h1, h2⟩ := relay_requests H es {}
  rcases h2 with ⟨a1, a2, -, -⟩ | ⟨-, c1, bad, x, c2, c3, -⟩
  · exact ⟨took, l, _, a2, a1, by simpa using h1, .inl rfl⟩
  · exact ⟨took, l, _, c3, c1, by simpa using h1, .inr ⟨bad, fun ⟨m, hm⟩ => (by rw [hm] at c2; cases c2), rfl⟩⟩

/-- **C82 fails**: whatever happens, `stop()` included, the poll thread never leaves its loop that way. -/
theorem C82_fails (H : Heap) (es : List RelayEv) (s : RelaySt) (hs : s.pc ≠ .stopped) : (s.run H es).1.pc ≠ .stopped := by
  induction es generalizing s with
  | nil => exact hs
  | cons e es ih =>
    refine ih _ ?_
    obtain ⟨rpc, ret, sig, pc⟩ := s
    simp only at hs
    cases e with
    | arrive p => exact hs
    | result n d => exact hs
    | stop => exact hs
    | deliver => cases sig <;> exact hs
    | go =>
      simp only [RelaySt.step, RelaySt.go]
      cases pc with
      | poll => simp
      | polled a b =>
        cases a with
        | false => simp
        | true => cases ret <;> simp
      | second b =>
        cases b with
        | false => simp
        | true =>
          cases rpc with
          | nil => simp
          | cons p r => cases h : readOne H p <;> simp [h]
      | stopped => exact absurd rfl hs
      | dead e => simp

/-- Instead, a message goes to a client of the name `STOP`. -/
theorem C82_fails_sent (H : Heap) : (RelaySt.run H {} [.stop, .go, .go]).2 = [.sent [83, 84, 79, 80] (.bin [])] := rfl

/-! ## Nothing waits for ever -/

/-- A poll that reported something is right about it. -/
def RelaySt.Sane (s : RelaySt) : Prop :=
  match s.pc with
  | .polled a b => (a = true → s.ret ≠ []) ∧ (b = true → s.rpc ≠ [])
  | .second b => b = true → s.rpc ≠ []
  | _ => True

theorem relay_sane_step (H : Heap) (s : RelaySt) (h : s.Sane) (e : RelayEv) : (s.step H e).1.Sane := by
  obtain ⟨rpc, ret, sig, pc⟩ := s
  cases e with
  | arrive p => cases pc <;> simp_all [RelaySt.Sane, RelaySt.step]
  | result n d => cases pc <;> simp_all [RelaySt.Sane, RelaySt.step]
  | stop => cases pc <;> simp_all [RelaySt.Sane, RelaySt.step]
  | deliver => cases sig <;> cases pc <;> simp_all [RelaySt.Sane, RelaySt.step]
  | go =>
    simp only [RelaySt.step, RelaySt.go]
    cases pc with
    | poll => simp [RelaySt.Sane]
    | polled a b =>
      cases a with
      | false => simp_all [RelaySt.Sane]
      | true => cases ret <;> simp_all [RelaySt.Sane]
    | second b =>
      cases b with
      | false => simp [RelaySt.Sane]
      | true =>
        cases rpc with
        | nil => simp_all [RelaySt.Sane]
        | cons p r => cases h : readOne H p <;> simp [RelaySt.Sane, h]
    | stopped => simp [RelaySt.Sane]
    | dead e => simp [RelaySt.Sane]

theorem relay_sane (H : Heap) (es : List RelayEv) (s : RelaySt) (h : s.Sane) : (s.run H es).1.Sane := by
  induction es generalizing s with
  | nil => exact h
  | cons e es ih => exact ih _ (relay_sane_step H s h e)

/-- How many steps of the thread are needed at most to empty both sockets: three for each turn of the loop. -/
def RelaySt.need (s : RelaySt) : Nat :=
  match s.pc with
  | .poll => 3 * max s.ret.length s.rpc.length
  | .polled a b => 2 + 3 * max (s.ret.length - a.toNat) (s.rpc.length - b.toNat)
  | .second b => 1 + 3 * max s.ret.length (s.rpc.length - b.toNat)
  | _ => 0

theorem relay_go (H : Heap) (s : RelaySt) (hs : s.Sane) (ho : s.pc.over = false) (hr : ∀ p ∈ s.rpc, Readable H p) (hn : s.ret ≠ [] ∨ s.rpc ≠ []) :
    (s.step H .go).1.need < s.need ∧ (s.step H .go).1.pc.over = false ∧ ∀ p ∈ (s.step H .go).1.rpc, Readable H p := by
  obtain ⟨rpc, ret, sig, pc⟩ := s
  simp only [RelaySt.step, RelaySt.go]
  cases pc with
  | poll =>
    cases ret <;> cases rpc <;> simp_all [RelaySt.need, RelayPc.over] <;> omega
  | polled a b =>
    cases a with
    | false => cases b <;> simp_all [RelaySt.need, RelayPc.over] <;> omega
    | true =>
      cases ret with
      | nil => simp_all [RelaySt.Sane]
      | cons x r => cases b <;> simp_all [RelaySt.need, RelayPc.over] <;> omega
  | second b =>
    cases b with
    | false => simp_all [RelaySt.need, RelayPc.over]
    | true =>
      cases rpc with
      | nil => simp_all [RelaySt.Sane]
      | cons p r =>
        obtain ⟨m, hm⟩ := hr p (by simp)
        simp_all [RelaySt.need, RelayPc.over]
  | stopped => cases ho
  | dead e => cases ho

/-- With messages only that can be read, `need` steps empty both sockets. -/
theorem relay_drain (H : Heap) (n : Nat) : ∀ s : RelaySt, s.Sane → s.pc.over = false → (∀ p ∈ s.rpc, Readable H p) → s.need ≤ n →
    (s.run H (List.replicate n .go)).1.ret = [] ∧ (s.run H (List.replicate n .go)).1.rpc = [] := by
  induction n with
  | zero =>
    intro s hs ho hr hn
    by_cases h : s.ret = [] ∧ s.rpc = []
    · exact h
    · have := (relay_go H s hs ho hr (by
        by_cases h1 : s.ret = []
        · exact .inr fun h2 => h ⟨h1, h2⟩
        · exact .inl h1)).1
      omega
  | succ n ih =>
    intro s hs ho hr hn
    by_cases h : s.ret = [] ∧ s.rpc = []
    · clear ih hn
      have key : ∀ (m : Nat) (s : RelaySt), s.ret = [] → s.rpc = [] → (s.run H (List.replicate m .go)).1.ret = [] ∧ (s.run H (List.replicate m .go)).1.rpc = [] := by
        intro m
        induction m with
        | zero => intro s h1 h2; exact ⟨h1, h2⟩
        | succ m ih =>
          intro s h1 h2
          have : (s.step H .go).1.ret = [] ∧ (s.step H .go).1.rpc = [] := by
            obtain ⟨rpc, ret, sig, pc⟩ := s
            simp only at h1 h2
            subst h1 h2
            simp only [RelaySt.step, RelaySt.go]
            cases pc with
            | polled a b => cases a <;> simp
            | second b => cases b <;> simp
            | _ => simp
          exact ih _ this.1 this.2
      exact key (n + 1) s h.1 h.2
    · have := relay_go H s hs ho hr (by
        by_cases h1 : s.ret = []
        · exact .inr fun h2 => h ⟨h1, h2⟩
        · exact .inl h1)
      exact ih (s.step H .go).1 (relay_sane_step H s hs .go) this.2.1 this.2.2 (by omega)

theorem relay_deliver (H : Heap) (n : Nat) : ∀ s : RelaySt, s.signals.length ≤ n →
    (s.run H (List.replicate n .deliver)).1.signals = [] ∧ (s.run H (List.replicate n .deliver)).1.ret = s.ret ∧ (s.run H (List.replicate n .deliver)).1.rpc = s.rpc := by
  induction n with
  | zero => intro s h; exact ⟨List.length_eq_zero_iff.1 (Nat.le_zero.1 h), rfl, rfl⟩
  | succ n ih =>
    intro s h
    obtain ⟨rpc, ret, sig, pc⟩ := s
    cases sig with
    | nil => exact ih ⟨rpc, ret, [], pc⟩ (by simp)
    | cons x sig => exact ih ⟨rpc, ret, sig, pc⟩ (by simp at h; simpa using h)

/-- **C65** After any history in which only messages arrived that can be read: once the poll thread and then the Qt thread have run long enough (a number of steps that depends only
on the history), every result produced has been sent, every request processed, all in order. -/
theorem C65_all (H : Heap) (es : List RelayEv) (hr : ∀ p ∈ arrivedIn es, Readable H p) : ∃ n m, ∀ n' m', n ≤ n' → m ≤ m' →
    relaySent (RelaySt.run H {} (es ++ (List.replicate n' .go ++ List.replicate m' .deliver))).2 = producedIn es ∧
    (arrivedIn es).map (readOne H) = (relayProcessed (RelaySt.run H {} (es ++ (List.replicate n' .go ++ List.replicate m' .deliver))).2).map .ok := by
  have hgo : ∀ n m, producedIn (es ++ (List.replicate n .go ++ List.replicate m .deliver)) = producedIn es ∧
      arrivedIn (es ++ (List.replicate n .go ++ List.replicate m .deliver)) = arrivedIn es := by
    intro n m
    have : ∀ n (e : RelayEv), (e = .go ∨ e = .deliver) → producedIn (List.replicate n e) = [] ∧ arrivedIn (List.replicate n e) = [] := by
      intro n e he
      induction n with
      | zero => exact ⟨rfl, rfl⟩
      | succ n ih =>
        rw [List.replicate_succ]
        rcases he with rfl | rfl
        · exact ih
        · exact ih
    have h1 := this n .go (.inl rfl)
    have h2 := this m .deliver (.inr rfl)
    simp only [producedIn, arrivedIn] at h1 h2
    simp [producedIn, arrivedIn, h1, h2]
  -- the state after the history
  have hsane := relay_sane H es {} (by simp [RelaySt.Sane])
  obtain ⟨took, l, h1, h2⟩ := relay_requests H es {}
  have hst : (RelaySt.run H {} es).1.pc.over = false ∧ ∀ p ∈ (RelaySt.run H {} es).1.rpc, Readable H p := by
    rcases h2 with ⟨-, a2, a3, -⟩ | ⟨-, -, bad, x, c2, c3, -⟩
    · refine ⟨a3, fun p hp => hr p ?_⟩
      have : arrivedIn es = took ++ (RelaySt.run H {} es).1.rpc := by simpa using a2
      rw [this]; simp [hp]
    · exfalso
      have : arrivedIn es = took ++ bad :: (RelaySt.run H {} es).1.rpc := by simpa using c3
      obtain ⟨m, hm⟩ := hr bad (by rw [this]; simp)
      rw [hm] at c2; cases c2
  refine ⟨(RelaySt.run H {} es).1.need, (arrivedIn es).length, fun n' m' hn hm => ?_⟩
  have hd := relay_drain H n' _ hsane hst.1 hst.2 hn
  -- after the steps of the poll thread
  have hlen : ((RelaySt.run H {} es).1.run H (List.replicate n' .go)).1.signals.length ≤ m' := by
    have hrun : ((RelaySt.run H {} es).1.run H (List.replicate n' .go)).1 = (RelaySt.run H {} (es ++ List.replicate n' .go)).1 := by
      rw [relay_run_append]
    rw [hrun]
    obtain ⟨took, l, rest, k1, k2, k3, -⟩ := C65_requests H (es ++ List.replicate n' .go)
    have ha : arrivedIn (es ++ List.replicate n' .go) = arrivedIn es := by simpa using (hgo n' 0).2
    have e1 : took.length ≤ (arrivedIn es).length := by rw [← ha, k1]; simp
    have e2 : took.length = l.length := by simpa using congrArg List.length k2
    have e3 := congrArg List.length k3
    simp only [List.length_append] at e3
    omega
  have hdel := relay_deliver H m' _ hlen
  have hfin : (RelaySt.run H {} (es ++ (List.replicate n' .go ++ List.replicate m' .deliver))).1 =
      (((RelaySt.run H {} es).1.run H (List.replicate n' .go)).1.run H (List.replicate m' .deliver)).1 := by
    rw [relay_run_append, relay_run_append]
  have hres := C65_results H (es ++ (List.replicate n' .go ++ List.replicate m' .deliver)) {}
  rw [hfin, hdel.2.1, hd.1, (hgo n' m').1] at hres
  refine ⟨by simpa using hres, ?_⟩
  obtain ⟨took, l, rest, k1, k2, k3, k4⟩ := C65_requests H (es ++ (List.replicate n' .go ++ List.replicate m' .deliver))
  rw [hfin, hdel.1, List.append_nil] at k3
  rw [hfin, hdel.2.2, hd.2] at k4
  rw [(hgo n' m').2] at k1
  rw [k3]
  rcases k4 with rfl | ⟨bad, hb, rfl⟩
  · rw [k1, List.append_nil, k2]
  · exact absurd (hr bad (by rw [k1]; simp)) hb

/-- **C65 fails** after a message that cannot be read (for example one of a wrong number of parts): the poll thread is dead, nothing that arrives later is processed, no result
produced later is sent. -/
theorem C65_fails (H : Heap) (es : List RelayEv) (e : Exc) (s : RelaySt) (hs : s.pc = .dead e) :
    relaySent (s.run H es).2 = [] ∧ ∃ x, s.signals = relayProcessed (s.run H es).2 ++ x := by
  induction es generalizing s with
  | nil => exact ⟨rfl, s.signals, rfl⟩
  | cons ev es ih =>
    obtain ⟨rpc, ret, sig, pc⟩ := s
    simp only at hs
    subst hs
    cases ev with
    | arrive p => exact ih ⟨rpc ++ [p], ret, sig, .dead e⟩ rfl
    | result n d => exact ih ⟨rpc, ret ++ [(n, d)], sig, .dead e⟩ rfl
    | stop => exact ih ⟨rpc, ret ++ [(stopName, .bin [])], sig, .dead e⟩ rfl
    | go => exact ih ⟨rpc, ret, sig, .dead e⟩ rfl
    | deliver =>
      cases sig with
      | nil => exact ih ⟨rpc, ret, [], .dead e⟩ rfl
      | cons x sig =>
        obtain ⟨h1, y, h2⟩ := ih ⟨rpc, ret, sig, .dead e⟩ rfl
        refine ⟨h1, y, ?_⟩
        simp only at h2
        have : (RelaySt.run H ⟨rpc, ret, x :: sig, .dead e⟩ (.deliver :: es)).2 = .process x.1 x.2 :: (RelaySt.run H ⟨rpc, ret, sig, .dead e⟩ es).2 := rfl
        rw [this]
        simp only [relayProcessed, List.filterMap_cons, List.cons_append, List.cons.injEq] at h2 ⊢
        exact ⟨trivial, h2⟩

theorem C65_fails_dead (H : Heap) : (RelaySt.run H {} [.arrive [], .go, .go, .go]).1.pc = .dead .valueError := rfl

/-! ## C66 -/

/-- Installed bindings are complete. -/
def Complete (installed : String → QtMod → Bool) : Prop := ∀ l m m', installed l m = installed l m'

/-- A complete namespace of this binding. -/
def fullNs (l : String) : QtNs := ⟨l, [.core, .gui, .widgets], decide (l ≠ "PySide6" ∧ l ≠ "PySide2"), true⟩

theorem qt_build (installed : String → QtMod → Bool) (s : QtSt) (l : String) (h : ∀ m, installed l m = true) :
    (s.build installed l).2 = .ok (fullNs l) ∧ (s.build installed l).1.ns = some (fullNs l) ∧ (s.build installed l).1.have_ = s.have_ ∧ (s.build installed l).1.lib = s.lib := by
  simp only [QtSt.build, QtSt.addMod, QtSt.importMod, h, if_true]
  exact ⟨by trivial, by trivial, by trivial, by trivial⟩

theorem qt_try (installed : String → QtMod → Bool) (libs : List String) : ∀ s : QtSt, s.have_ = some false →
    (∀ l, libs.find? (fun l => installed l .core) = some l → (s.tryLibs installed libs).have_ = some true ∧ (s.tryLibs installed libs).lib = some l) ∧
    (libs.find? (fun l => installed l .core) = none → s.tryLibs installed libs = s) ∧ (s.tryLibs installed libs).ns = s.ns := by
  induction libs with
  | nil => intro s h; exact ⟨by simp, fun _ => rfl, rfl⟩
  | cons l libs ih =>
    intro s h
    cases hi : installed l .core with
    | true =>
      simp only [QtSt.tryLibs, QtSt.importMod, hi, if_true, List.find?_cons]
      exact ⟨fun l' hl => by cases hl; exact ⟨by trivial, by trivial⟩, by simp, by trivial⟩
    | false =>
      simp only [QtSt.tryLibs, QtSt.importMod, hi, Bool.false_eq_true, if_false, List.find?_cons]
      exact ih s h

/-- **C66** With no binding imported yet: the first one installed, in the order, all its modules; ImportError if there is none. -/
theorem C66_first (installed : String → QtMod → Bool) (hc : Complete installed) (s : QtSt) (h1 : s.have_ = none) (h2 : s.ns = none) (h3 : ∀ l ∈ qtLibs, s.isLoaded l = false) :
    (∀ l, qtLibs.find? (fun l => installed l .core) = some l → (s.importQt installed none).2 = .ok (fullNs l)) ∧
    ((∀ l ∈ qtLibs, installed l .core = false) → (s.importQt installed none).2 = .error .importError) := by
  have hcheck : s.check = s := by
    rw [QtSt.check, if_pos h1]
    have : qtLibs.find? s.isLoaded = none := by
      rw [List.find?_eq_none]
      intro l hl
      simp [h3 l hl]
    rw [this]
  obtain ⟨t1, t2, t3⟩ := qt_try installed qtLibs { s with have_ := some false } rfl
  have hse : s.search installed none = QtSt.tryLibs installed { s with have_ := some false } qtLibs := by
    rw [QtSt.search, if_neg (by rw [h1]; simp)]
    rfl
  have hb : s.importQt installed none = (s.search installed none).conclude installed := by
    unfold QtSt.importQt
    simp only [h1, reduceCtorEq, if_false, hcheck, false_and, h2]
  rw [hb, hse]
  constructor
  · intro l hf
    obtain ⟨e1, e2⟩ := t1 l hf
    rw [QtSt.conclude, if_pos e1, e2]
    refine (qt_build installed _ l fun m => ?_).1
    have := List.find?_some hf
    rw [← this, hc l m .core]
  · intro hn
    rw [t2 (by rw [List.find?_eq_none]; intro l hl; simp [hn l hl])]
    rfl

/-- **C66** A binding that the program has imported already is used, whatever else is installed (the first in the order if there are several). -/
theorem C66_imported (installed : String → QtMod → Bool) (s : QtSt) (h1 : s.have_ = none) (h2 : s.ns = none) (l : String) (hl : qtLibs.find? s.isLoaded = some l)
    (hi : ∀ m, installed l m = true) : (s.importQt installed none).2 = .ok (fullNs l) := by
  have hcheck : s.check = { s with have_ := some true, lib := some l } := by
    rw [QtSt.check, if_pos h1, hl]
  have hb : s.importQt installed none = QtSt.build installed { s with have_ := some true, lib := some l } l := by
    unfold QtSt.importQt
    simp only [h1, reduceCtorEq, if_false, hcheck, h2, ne_eq, not_true_eq_false, false_and, and_false]
    rfl
  rw [hb]
  exact (qt_build installed _ l hi).1

/-- The state after a success. -/
def QtSt.Good (l : String) (s : QtSt) : Prop := s.have_ = some true ∧ s.lib = some l ∧ s.ns = some (fullNs l)

theorem qt_good_step (installed : String → QtMod → Bool) (l : String) (s : QtSt) (h : s.Good l) (e : QtEv) : (s.step installed e).1.Good l := by
  obtain ⟨h1, h2, h3⟩ := h
  cases e with
  | importQt req =>
    simp only [QtSt.step, QtSt.importQt, h1, if_true]
    split
    · exact ⟨h1, h2, h3⟩
    · simp only [h3]; exact ⟨h1, h2, h3⟩
  | check => simp only [QtSt.step, QtSt.check, h1]; exact ⟨h1, h2, h3⟩
  | other l' m =>
    simp only [QtSt.step, QtSt.importMod]
    split <;> exact ⟨h1, h2, h3⟩

/-- **C66** After a success, whatever happens then (imports of other bindings included): each further `import_qt` returns the same namespace, or refuses if another binding is asked for. -/
theorem C66_same (installed : String → QtMod → Bool) (l : String) (s : QtSt) (h : s.Good l) (es : List QtEv) (req : Option String) :
    ((s.run installed es).importQt installed req).2 = if req = none ∨ req = some l then .ok (fullNs l) else .error .valueError := by
  have hg : (s.run installed es).Good l := by
    unfold QtSt.run
    induction es generalizing s with
    | nil => exact h
    | cons e es ih => exact ih _ (qt_good_step installed l s h e)
  obtain ⟨h1, h2, h3⟩ := hg
  simp only [QtSt.importQt, h1, if_true, h2, h3, true_and]
  cases req with
  | none => simp
  | some r => by_cases hr : r = l <;> simp [hr]

/-- A successful call leads to such a state, if it begins with no namespace. -/
theorem C66_good (installed : String → QtMod → Bool) (hc : Complete installed) (s : QtSt) (req : Option String) (hn : s.ns = none)
    (hs : s.have_ = some true → ∃ l, s.lib = some l) (n : QtNs) (h : (s.importQt installed req).2 = .ok n) : ∃ l, n = fullNs l ∧ (s.importQt installed req).1.Good l ∧ (req = none ∨ req = some l) := by
  have hcn : (if s.have_ = some true then s else s.check).ns = none := by
    split
    · exact hn
    · rw [QtSt.check]
      split
      · split <;> exact hn
      · exact hn
  have hsl : (if s.have_ = some true then s else s.check).have_ = some true → ∃ l, (if s.have_ = some true then s else s.check).lib = some l := by
    split
    · exact hs
    · rw [QtSt.check]
      split
      · split
        · exact fun _ => ⟨_, rfl⟩
        · exact hs
      · exact hs
  unfold QtSt.importQt at h ⊢
  simp only at h ⊢
  generalize (if s.have_ = some true then s else s.check) = s1 at h hcn hsl ⊢
  split at h
  · cases h
  · rename_i hreq
    rw [if_neg hreq]
    rw [hcn] at h ⊢
    simp only at h ⊢
    generalize hs2 : s1.search installed req = s2 at h ⊢
    by_cases hh : s2.have_ = some true
    · rw [QtSt.conclude, if_pos hh] at h ⊢
      have hlib : ∃ l, s2.lib = some l ∧ (req = none ∨ req = some l) := by
        by_cases ht : s1.have_ = some true
        · rw [QtSt.search, if_pos ht] at hs2
          subst hs2
          obtain ⟨l, hl⟩ := hsl ht
          refine ⟨l, hl, ?_⟩
          cases req with
          | none => exact .inl rfl
          | some r =>
            right
            exact Classical.byContradiction fun hne => hreq ⟨ht, by simp, by rw [hl]; exact hne⟩
        · rw [QtSt.search, if_neg ht] at hs2
          obtain ⟨t1, t2, -⟩ := qt_try installed (qtCandidates req) { s1 with have_ := some false } rfl
          rw [hs2] at t1 t2
          cases hf : (qtCandidates req).find? (fun l => installed l .core) with
          | none => rw [t2 hf] at hh; cases hh
          | some l =>
            refine ⟨l, (t1 l hf).2, ?_⟩
            cases req with
            | none => exact .inl rfl
            | some r =>
              have := List.mem_of_find?_eq_some hf
              simp only [qtCandidates, List.mem_singleton] at this
              rw [this]
              exact .inr rfl
      obtain ⟨l, hl, hr⟩ := hlib
      rw [hl] at h ⊢
      simp only [Option.getD_some] at h ⊢
      -- the modules are installed, or the call had failed
      have hcore : installed l .core = true := by
        cases hi : installed l .core with
        | true => rfl
        | false => simp [QtSt.build, QtSt.addMod, QtSt.importMod, hi] at h
      obtain ⟨b1, b2, b3, b4⟩ := qt_build installed s2 l fun m => by rw [hc l m .core, hcore]
      rw [b1] at h
      cases h
      exact ⟨l, rfl, ⟨by rw [b3]; exact hh, by rw [b4]; exact hl, b2⟩, hr⟩
    · rw [QtSt.conclude, if_neg hh] at h
      cases h

/-- What holds in every process. -/
structure QtSt.Inv (installed : String → QtMod → Bool) (s : QtSt) : Prop where
  loaded : ∀ l m, (l, m) ∈ s.loaded → installed l m = true
  lib : s.have_ = some true → ∃ l, s.lib = some l ∧ installed l .core = true
  ns : s.ns = none ∨ ∃ l, s.Good l

theorem qt_inv_check (installed : String → QtMod → Bool) (hc : Complete installed) (s : QtSt) (h : s.Inv installed) : s.check.Inv installed := by
  rw [QtSt.check]
  split
  · rename_i hn
    split
    · rename_i l hl
      have hl := List.find?_some hl
      refine ⟨h.loaded, fun _ => ⟨l, rfl, ?_⟩, ?_⟩
      · simp only [QtSt.isLoaded, Bool.or_eq_true, List.contains_iff_mem] at hl
        rcases hl with (hl | hl) | hl
        · exact h.loaded _ _ hl
        · rw [hc l .core .gui]; exact h.loaded _ _ hl
        · rw [hc l .core .widgets]; exact h.loaded _ _ hl
      · rcases h.ns with hns | ⟨l', hg⟩
        · exact .inl hns
        · rw [hg.1] at hn; cases hn
    · exact h
  · exact h

theorem qt_inv_try (installed : String → QtMod → Bool) (libs : List String) : ∀ s : QtSt, (∀ l m, (l, m) ∈ s.loaded → installed l m = true) →
    (∀ l m, (l, m) ∈ (s.tryLibs installed libs).loaded → installed l m = true) ∧
    (s.have_ ≠ some true → (s.tryLibs installed libs).have_ = some true → ∃ l, (s.tryLibs installed libs).lib = some l ∧ installed l .core = true) := by
  induction libs with
  | nil => exact fun s h => ⟨h, fun h1 h2 => absurd h2 h1⟩
  | cons l libs ih =>
    intro s h
    cases hi : installed l .core with
    | true =>
      simp only [QtSt.tryLibs, QtSt.importMod, hi, if_true]
      refine ⟨fun l' m hm => ?_, fun _ _ => ⟨l, rfl, hi⟩⟩
      simp only [List.mem_cons, Prod.mk.injEq] at hm
      rcases hm with ⟨rfl, rfl⟩ | hm
      · exact hi
      · exact h _ _ hm
    | false =>
      simp only [QtSt.tryLibs, QtSt.importMod, hi, Bool.false_eq_true, if_false]
      exact ih s h

theorem qt_inv_build (installed : String → QtMod → Bool) (s : QtSt) (l : String) (h : ∀ m, installed l m = true) (hl : ∀ l m, (l, m) ∈ s.loaded → installed l m = true)
    (h1 : s.have_ = some true) (h2 : s.lib = some l) : (s.build installed l).1.Inv installed := by
  obtain ⟨-, b2, b3, b4⟩ := qt_build installed s l h
  refine ⟨fun l' m hm => ?_, fun _ => ⟨l, by rw [b4]; exact h2, h .core⟩, .inr ⟨l, by rw [b3]; exact h1, by rw [b4]; exact h2, b2⟩⟩
  simp only [QtSt.build, QtSt.addMod, QtSt.importMod, h, if_true, Option.map_some, List.mem_cons, Prod.mk.injEq] at hm
  rcases hm with ⟨rfl, -⟩ | ⟨rfl, -⟩ | ⟨rfl, -⟩ | hm
  · exact h m
  · exact h m
  · exact h m
  · exact hl _ _ hm

theorem qt_inv_step (installed : String → QtMod → Bool) (hc : Complete installed) (s : QtSt) (h : s.Inv installed) (e : QtEv) : (s.step installed e).1.Inv installed := by
  cases e with
  | check => exact qt_inv_check installed hc s h
  | other l m =>
    simp only [QtSt.step, QtSt.importMod]
    split
    · rename_i hi
      refine ⟨fun l' m' hm => ?_, h.lib, h.ns⟩
      simp only [List.mem_cons, Prod.mk.injEq] at hm
      rcases hm with ⟨rfl, rfl⟩ | hm
      · exact hi
      · exact h.loaded _ _ hm
    · exact h
  | importQt req =>
    show (s.importQt installed req).1.Inv installed
    have h1 : (if s.have_ = some true then s else s.check).Inv installed := by
      split
      · exact h
      · exact qt_inv_check installed hc s h
    unfold QtSt.importQt
    simp only
    generalize (if s.have_ = some true then s else s.check) = s1 at h1 ⊢
    split
    · exact h1
    · split
      · exact h1
      · rename_i hns
        by_cases ht : s1.have_ = some true
        · rw [QtSt.search, if_pos ht, QtSt.conclude, if_pos ht]
          obtain ⟨l, hl, hi⟩ := h1.lib ht
          rw [hl]
          exact qt_inv_build installed s1 l (fun m => by rw [hc l m .core, hi]) h1.loaded ht hl
        · obtain ⟨t1, t2⟩ := qt_inv_try installed (qtCandidates req) { s1 with have_ := some false } h1.loaded
          have t2 := t2 (by simp)
          obtain ⟨u1, u2, u3⟩ := qt_try installed (qtCandidates req) { s1 with have_ := some false } rfl
          rw [QtSt.search, if_neg ht]
          generalize QtSt.tryLibs installed { s1 with have_ := some false } (qtCandidates req) = s2 at t1 t2 u1 u2 u3 ⊢
          by_cases hh : s2.have_ = some true
          · obtain ⟨l, hl, hi⟩ := t2 hh
            rw [QtSt.conclude, if_pos hh, hl]
            exact qt_inv_build installed s2 l (fun m => by rw [hc l m .core, hi]) t1 hh hl
          · rw [QtSt.conclude, if_neg hh]
            exact ⟨t1, fun h => absurd h hh, .inl (by rw [u3]; exact hns)⟩

/-- **C66** For every history of calls and imports with complete bindings: once `import_qt` has returned a namespace, it is the complete one of a single binding, and every call after
any further history returns the same, or refuses a request for another. -/
theorem C66_history (installed : String → QtMod → Bool) (hc : Complete installed) (es es' : List QtEv) (req req' : Option String) (n : QtNs)
    (h : ((QtSt.run installed {} es).importQt installed req).2 = .ok n) :
    ∃ l, n = fullNs l ∧ (req = none ∨ req = some l) ∧
      ((QtSt.run installed {} (es ++ .importQt req :: es')).importQt installed req').2 = if req' = none ∨ req' = some l then .ok (fullNs l) else .error .valueError := by
  have hinv : ∀ (es : List QtEv) (s : QtSt), s.Inv installed → (s.run installed es).Inv installed := by
    intro es
    induction es with
    | nil => exact fun s h => h
    | cons e es ih => exact fun s h => ih _ (qt_inv_step installed hc s h e)
  have hi := hinv es {} ⟨by simp, by simp, .inl rfl⟩
  have hrun : QtSt.run installed {} (es ++ .importQt req :: es') = QtSt.run installed ((QtSt.run installed {} es).importQt installed req).1 es' := by
    simp only [QtSt.run, List.foldl_append, List.foldl_cons]
    rfl
  rw [hrun]
  rcases hi.ns with hns | ⟨l, hg⟩
  · obtain ⟨l, hn, hg, hr⟩ := C66_good installed hc _ req hns (fun ht => by obtain ⟨l, hl, -⟩ := hi.lib ht; exact ⟨l, hl⟩) n h
    exact ⟨l, hn, hr, C66_same installed l _ hg es' req'⟩
  · have hsame := C66_same installed l _ hg [] req
    have h' := hsame
    simp only [QtSt.run, List.foldl_nil] at h'
    rw [show ((QtSt.run installed {} es).importQt installed req).2 = _ from h'] at h
    by_cases hr : req = none ∨ req = some l
    · rw [if_pos hr] at h
      cases h
      have hg' := qt_good_step installed l _ hg (.importQt req)
      exact ⟨l, rfl, hr, C66_same installed l _ hg' es' req'⟩
    · rw [if_neg hr] at h
      cases h

/-- **C66** refuses a conflicting request. -/
theorem C66_refuses (installed : String → QtMod → Bool) (l r : String) (s : QtSt) (h : s.Good l) (hr : r ≠ l) (es : List QtEv) :
    ((s.run installed es).importQt installed (some r)).2 = .error .valueError := by
  rw [C66_same installed l s h es]
  simp [hr]

/-- Two bindings. -/
def Ex.installed : String → QtMod → Bool := fun l _ => l = "PyQt6" || l = "PySide2"

example : Complete Ex.installed := fun _ _ _ => rfl
example : (QtSt.importQt Ex.installed {} none).2 = .ok (fullNs "PyQt6") := by decide
example : ((QtSt.run Ex.installed {} [.other "PySide2" .gui]).importQt Ex.installed none).2 = .ok (fullNs "PySide2") := by decide
example : (QtSt.run Ex.installed {} [.importQt none]).Good "PyQt6" := by unfold QtSt.Good; decide

/-- **C66 fails** after a failure: once a request for a binding that is not installed has failed, a binding that the program imports later is not noticed and another one is chosen. -/
theorem C66_fails : (QtSt.run Ex.installed {} [.importQt (some "PyQt5"), .other "PySide2" .core]).isLoaded "PySide2" = true ∧
    (QtSt.run Ex.installed {} [.importQt (some "PyQt5"), .other "PySide2" .core]).isLoaded "PyQt6" = false ∧
    ((QtSt.run Ex.installed {} [.importQt (some "PyQt5"), .other "PySide2" .core]).importQt Ex.installed none).2 = .ok (fullNs "PyQt6") := by decide

/-- **C66 fails** for an incomplete binding: the first call fails, the second returns, without error, a namespace without widgets. -/
theorem C66_fails_incomplete : ∃ installed : String → QtMod → Bool, (QtSt.importQt installed {} none).2 = .error .importError ∧
    ((QtSt.run installed {} [.importQt none]).importQt installed none).2 = .ok ⟨"PyQt6", [.core, .gui], false, false⟩ :=
  ⟨fun _ m => m ≠ .widgets, by decide, by decide⟩

namespace Ex

/-! ## The theorems on these cases -/

/-- A request arrives and is read, the result of an earlier one is sent. -/
def relayEvs : List RelayEv := [.arrive [[65], [1], [13], [20], [30], [3]], .go, .result [66] (.int 7), .go, .go, .go, .deliver]
example := C82_fails heap relayEvs {} (by simp)
example := C65_all heap relayEvs (by
  intro p hp
  have : arrivedIn relayEvs = [[[65], [1], [13], [20], [30], [3]]] := by decide +kernel
  rw [this] at hp
  simp only [List.mem_cons, List.not_mem_nil, or_false] at hp
  subst hp
  exact ⟨_, rfl⟩)
/-- A message of one frame ends the thread. -/
example : ∃ e, (RelaySt.run heap {} [.arrive [[65]], .go, .go, .go]).1.pc = .dead e ∧ relaySent ((RelaySt.run heap {} [.arrive [[65]], .go, .go, .go]).1.run heap relayEvs).2 = [] := by
  have h : (RelaySt.run heap {} [.arrive [[65]], .go, .go, .go]).1.pc = .dead .valueError := by rfl
  exact ⟨_, h, (C65_fails heap relayEvs _ _ h).1⟩
theorem installed_complete : Complete installed := fun _ _ _ => rfl
example := (C66_first installed installed_complete {} rfl rfl (by decide)).1 "PyQt6" (by decide)
example := C66_imported installed (QtSt.run installed {} [.other "PySide2" .gui]) (by decide) (by decide) "PySide2" (by decide) (fun _ => rfl)
theorem good_qt6 : (QtSt.run installed {} [.importQt none]).Good "PyQt6" := by unfold QtSt.Good; decide
example := C66_same installed "PyQt6" _ good_qt6 [.other "PySide2" .gui, .importQt (some "PyQt5")] (some "PyQt6")
example := C66_good installed installed_complete {} none rfl (by simp) (fullNs "PyQt6") (by decide)
example := C66_history installed installed_complete [.other "PySide2" .gui] [.importQt (some "PyQt6")] none (some "PySide2") (fullNs "PySide2") (by decide)
example := C66_refuses installed "PyQt6" "PySide2" _ good_qt6 (by decide) [.other "PySide2" .gui]

end Ex

end Verif
