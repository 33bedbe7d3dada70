import Verif.Props.ClientExample
/-!
# C115: a reply that cannot be read

A reply can fail in two ways: its bytes cannot be decoded (`serializer.loads` raises), or it decodes to a dict without the fields a reply needs. What happens then to the
request it answers, and to the requests it has nothing to do with.
-/
namespace Verif

/-- Request `k` has lost its reply: its future is pending, and no longer in the table of the client. -/
def Cli.Stuck (c : Cli) (k : Nat) : Prop := c.fut k = some .pending ∧ c.table.get? k = none ∧ k < c.nextId

theorem stuck_disconnected {c : Cli} {k : Nat} (h : c.Stuck k) : c.serverDisconnected.Stuck k := by
  obtain ⟨h1, h2, h3⟩ := h
  refine ⟨?_, rfl, h3⟩
  simp only [Cli.fut, Cli.serverDisconnected, gone_get, h2]
  exact h1

theorem stuck_step {K : Codec} {c : Cli} {k : Nat} (h : c.Stuck k) (e : CEv) (he : e ≠ .drop k) : (c.step K e).1.Stuck k := by
  obtain ⟨h1, h2, h3⟩ := h
  cases e with
  | drop k' =>
    have hk : k' ≠ k := fun h => he (by rw [h])
    exact ⟨by simpa [Cli.step, Cli.drop, Cli.fut, Dict.get?_erase, hk] using h1, by simp [Cli.step, Cli.drop, Dict.get?_erase, hk, h2], h3⟩
  | close => exact ⟨h1, h2, h3⟩
  | send E t a o rt sy =>
    have hc := send_cases K E t c a o rt sy
    have hs : (c.step K (.send E t a o rt sy)).1 = (c.send K E t a o rt sy).2.1 := rfl
    rw [hs]
    generalize (c.send K E t a o rt sy).2.1 = c' at *
    generalize (c.send K E t a o rt sy).2.2.1 = m at *
    generalize (c.send K E t a o rt sy).2.2.2 = r at *
    cases hc with
    | disconnected _ => exact ⟨h1, h2, h3⟩
    | failed _ => exact ⟨h1, h2, by simp only; split <;> omega⟩
    | off _ _ _ => exact ⟨h1, h2, h3⟩
    | sent _ _ _ _ _ =>
      refine ⟨?_, ?_, by simp only; omega⟩
      · simp only [Cli.fut, Dict.get?_set]; rw [if_neg (by omega)]; exact h1
      · simp only [Dict.get?_set]; rw [if_neg (by omega)]; exact h2
    | invalid _ _ _ _ _ => exact ⟨h1, h2, by simp only; omega⟩
  | recv P w =>
    have hs : (c.step K (.recv P w)).1 = (c.receive P w).1 := rfl
    rw [hs]
    unfold Cli.receive
    split
    · exact ⟨h1, h2, h3⟩
    · split
      · exact ⟨h1, h2, h3⟩
      · rename_i msg hm
        have hc := processMsg_cases P c msg
        generalize (c.processMsg P msg).1 = c' at hc
        generalize (c.processMsg P msg).2 = r at hc
        cases hc with
        | ignored _ _ _ => exact ⟨h1, h2, h3⟩
        | lost _ _ _ _ _ => exact ⟨h1, by simp only [Dict.get?_erase]; split <;> first | rfl | exact h2, h3⟩
        | @set d k' b f' hd hr hb hsay _ =>
          have hk : k' ≠ k := by rintro rfl; rw [h2] at hb; cases hb
          refine ⟨?_, by simp only [Dict.get?_erase]; rw [if_neg hk]; exact h2, h3⟩
          simp only [Cli.fut, Dict.get?_set]; rw [if_neg hk]; exact h1
        | @closed d k' hd hr hb hsay =>
          have hk : k' ≠ k := by rintro rfl; rw [h2] at hb; cases hb
          refine stuck_disconnected ⟨?_, by simp only [Dict.get?_erase]; rw [if_neg hk]; exact h2, h3⟩
          simp only [Cli.fut, Dict.get?_set]; rw [if_neg hk]; exact h1
        | @disconnect d hd hdis => exact stuck_disconnected ⟨h1, h2, h3⟩

theorem stuck_run {K : Codec} : ∀ (es : List CEv) {c : Cli} {k : Nat}, c.Stuck k → .drop k ∉ es → (c.run K es).1.Stuck k
  | [], _, _, h, _ => h
  | e :: es, _, _, h, hd => stuck_run es (stuck_step h e (fun h => hd (by simp [h]))) (fun h => hd (List.mem_cons_of_mem _ h))

/-- What is wrong with a reply that says nothing, and the exception it causes: no `error`, no error and no `rval`, or an error that is not a pair. -/
inductive Wrong (P : CliEnv) (d : List (Val × Val)) : Exc → Prop where
  | noError : lookupStr d "error" = none → Wrong P d .keyError
  | noValue : lookupStr d "error" = some .none → lookupStr d "rval" = none → Wrong P d .keyError
  | tuple (l : List Val) : lookupStr d "error" = some (.tuple l) → l.length ≠ 2 → Wrong P d .typeError
  | list (l : List Val) : lookupStr d "error" = some (.list l) → l.length ≠ 2 → Wrong P d .typeError
  /-- Python cannot pass this as two arguments -/
  | other (v : Val) (e : Exc) : lookupStr d "error" = some v → (∀ l, v ≠ .tuple l ∧ v ≠ .list l) → (v = .none → False) → P.unpack v = .error e → Wrong P d e

/-- **C115** A decoded reply to a request this client waits for either says a value or a remote exception, and then that becomes the outcome of the request, or is wrong in one of
the ways listed, and then the call that reads it raises accordingly and the request has lost its reply. -/
theorem C115_exact (K : Codec) (name : Bytes) (ser : Ser) (es : List CEv) (P : CliEnv) (w : Wire) (d : List (Val × Val)) (k : Nat) (b : Bool)
    (ho : ((Cli.init name ser).run K es).1.sockOpen = true) (hr : ((Cli.init name ser).run K es).1.reads P w d) (hk : IsReply P d k)
    (ht : ((Cli.init name ser).run K es).1.table.get? k = some b) :
    (∃ f, Says P d f ∧ (((Cli.init name ser).run K es).1.step K (.recv P w)).1.fut k = some f) ∨
    (∃ e, Wrong P d e ∧ (((Cli.init name ser).run K es).1.receive P w).2 = .error e ∧ (((Cli.init name ser).run K es).1.step K (.recv P w)).1.Stuck k) := by
  have hi := run_inv (K := K) es (Cli.inv_init name ser)
  generalize ((Cli.init name ser).run K es).1 = c at *
  obtain ⟨ha, rid, hid, hkey⟩ := hk
  have hp := hi.pend k b ht
  have hlt := hi.bound k (by rw [hp]; simp)
  have hs : c.step K (.recv P w) = ((c.receive P w).1, [.got (c.receive P w).2]) := rfl
  rw [hs]
  have e1 : c.receive P w = c.processMsg P (.dict d) := by simp [Cli.receive, ho, show c.ser.loads P.recv w = .ok (.dict d) from hr]
  have e2 : (do reqKey P.other (← field d "req_id")) = .ok (some (k : Int)) := by rw [field_ok.2 hid]; exact hkey
  have stuck : ({ c with table := c.table.erase k } : Cli).Stuck k := ⟨hp, by simp [Dict.get?_erase], hlt⟩
  rw [e1]
  cases hE : lookupStr d "error" with
  | none =>
    have : field d "error" = .error .keyError := by simp [field, hE]
    simp only [Cli.processMsg, field_ok.2 ha, e2]
    rw [if_neg (by omega)]
    simp only [Int.toNat_natCast, ht, this]
    exact .inr ⟨_, .noError hE, rfl, stuck⟩
  | some v =>
    by_cases hn : v = .none
    · subst hn
      simp only [Cli.processMsg, field_ok.2 ha, e2]
      rw [if_neg (by omega)]
      simp only [Int.toNat_natCast, ht, field_ok.2 hE]
      cases hV : lookupStr d "rval" with
      | none =>
        have : field d "rval" = .error .keyError := by simp [field, hV]
        simp only [this]
        exact .inr ⟨_, .noValue hE hV, rfl, stuck⟩
      | some r =>
        rw [field_ok.2 hV]
        simp only
        refine .inl ⟨.value r, ⟨hE, hV⟩, ?_⟩
        split
        · simp [Cli.fut, Cli.serverDisconnected, gone_get, Dict.get?_erase, Dict.get?_set]
        · simp [Cli.fut, Dict.get?_set]
    · have hnn : ∀ h : v = .none, False := hn
      have key : (match unpack2 P.unpack v with
          | .error e => (({ c with table := c.table.erase k } : Cli), (.error e : Except Exc Unit))
          | .ok (a, b) => ({ c with table := c.table.erase k, futs := c.futs.set k (.remote a b) }, .ok ())) = c.processMsg P (.dict d) := by
        simp only [Cli.processMsg, field_ok.2 ha, e2]
        rw [if_neg (by omega)]
        simp only [Int.toNat_natCast, ht, field_ok.2 hE]
        cases v <;> first | rfl | exact absurd rfl hn
      rw [← key]
      have un : ∀ e, unpack2 P.unpack v = .error e → Wrong P d e := by
        intro e h
        have ll : ∀ l : List Val, (∀ a b, l ≠ [a, b]) → l.length ≠ 2 := by
          intro l hl hh
          match l, hh with
          | [a, b], _ => exact hl a b rfl
        unfold unpack2 at h
        split at h
        · cases h
        · cases h
        · rename_i l hl; cases h; exact .tuple l hE (ll l fun a b hab => hl a b (by rw [hab]))
        · rename_i l hl; cases h; exact .list l hE (ll l fun a b hab => hl a b (by rw [hab]))
        · rename_i h1 h2 h3 h4; exact .other v e hE (fun l => ⟨fun hh => h3 l hh, fun hh => h4 l hh⟩) hnn h
      cases hu : unpack2 P.unpack v with
      | error e => exact .inr ⟨e, un e hu, rfl, stuck⟩
      | ok ab => obtain ⟨x, y⟩ := ab; exact .inl ⟨.remote x y, ⟨v, hE, hnn, hu⟩, by simp [Cli.fut, Dict.get?_set]⟩

/-- the two cases of `C115_exact` exclude each other -/
theorem C115_exclusive {P : CliEnv} {d : List (Val × Val)} {e : Exc} (h : Wrong P d e) (f : Fut) : ¬ Says P d f := by
  intro hs
  cases f with
  | pending => exact hs
  | gone => exact hs
  | value v =>
    obtain ⟨h1, h2⟩ := hs
    cases h with
    | noError h => rw [h] at h1; cases h1
    | noValue _ h => rw [h] at h2; cases h2
    | tuple l h _ => rw [h] at h1; cases h1
    | list l h _ => rw [h] at h1; cases h1
    | other v e h _ hn _ => rw [h] at h1; cases h1; exact hn rfl
  | remote a b =>
    obtain ⟨v, h1, h2, h3⟩ := hs
    cases h with
    | noError h => rw [h] at h1; cases h1
    | noValue h _ => rw [h] at h1; cases h1; exact h2 rfl
    | tuple l h hl =>
      rw [h] at h1; cases h1
      match l, hl, h3 with
      | [], _, h3 => cases h3
      | [_], _, h3 => cases h3
      | [_, _], hl, _ => exact hl rfl
      | _ :: _ :: _ :: _, _, h3 => cases h3
    | list l h hl =>
      rw [h] at h1; cases h1
      match l, hl, h3 with
      | [], _, h3 => cases h3
      | [_], _, h3 => cases h3
      | [_, _], hl, _ => exact hl rfl
      | _ :: _ :: _ :: _, _, h3 => cases h3
    | other v' e h hl hn hu =>
      rw [h] at h1; cases h1
      unfold unpack2 at h3
      split at h3
      · exact (hl _).1 rfl
      · exact (hl _).2 rfl
      · exact (hl _).1 rfl
      · exact (hl _).2 rfl
      · rw [hu] at h3; cases h3

/-- **C115 fails**: a request that has lost its reply stays pending for ever, whatever arrives later: a second, correct reply, the message that the server has closed,
the answer to a close request of this client. -/
theorem C115_fails_lost (K : Codec) (c : Cli) (k : Nat) (h : c.Stuck k) (es : List CEv) (hd : .drop k ∉ es) :
    (c.run K es).1.fut k = some .pending ∧ (c.run K es).1.done k = false := by
  have := stuck_run (K := K) es h hd
  exact ⟨this.1, by have h1 := this.1; simp only [Cli.fut] at h1; simp [Cli.done, h1]⟩

/-- the uses of the client in a turn do not collect the future of `k` (the caller of `result` holds it) -/
def Turn.Holds (k : Nat) : Turn → Prop
  | .qt _ nested _ _ _ => .drop k ∉ nested
  | .serve _ nested _ _ => .drop k ∉ nested
  | _ => True

theorem stuck_receive {c : Cli} {k : Nat} (K : Codec) (h : c.Stuck k) (P : CliEnv) (w : Wire) : (c.receive P w).1.Stuck k :=
  stuck_step (K := K) h (.recv P w) (by simp)

theorem stuck_turn {K : Codec} {c : Cli} {k : Nat} (h : c.Stuck k) (t : Turn) (ht : t.Holds k) : (c.turn K t).1.Stuck k := by
  cases t with
  | plain n got a =>
    cases got with
    | none => exact h
    | some x => exact stuck_receive K h x.1 x.2
  | qt n nested r got a =>
    have h1 := stuck_run (K := K) nested h ht
    simp only [Cli.turn]
    split
    · exact h1
    · split
      · exact h1
      · rename_i P w
        have h2 := stuck_receive K h1 P w
        generalize Cli.receive P (c.run K nested).1 w = x at h2
        obtain ⟨c', r⟩ := x
        split
        · rename_i he; cases he; exact h2
        · exact h2
  | readable n P w a => exact stuck_receive K h P w
  | serve n nested r a => exact stuck_run nested h ht
  | idle n a => exact h

/-- **C115 fails**: `result()` of such a request never returns: it waits until its timeout, or until something else raises an exception; without a timeout it waits for ever. -/
theorem C115_fails_waits (K : Codec) (k : Nat) (start : Int) (timeout : Option Int) : ∀ (ts : List Turn) (c : Cli), c.Stuck k → (∀ t ∈ ts, t.Holds k) →
    (c.waitFor K k start timeout ts).2.1 ≠ .returned
  | [], c, h, _ => by
    have h1 := h.1
    simp only [Cli.fut] at h1
    simp [Cli.waitFor, Cli.done, h1]
  | t :: ts, c, h, ht => by
    have h1 := h.1
    simp only [Cli.fut] at h1
    have hd : c.done k = false := by simp [Cli.done, h1]
    simp only [Cli.waitFor, hd, Bool.false_eq_true, if_false]
    split
    · simp
    · have h2 := stuck_turn (K := K) h t (ht t (by simp))
      split
      · rename_i c' he
        rw [he] at h2
        exact C115_fails_waits K k start timeout ts c' h2 (fun t h => ht t (List.mem_cons_of_mem _ h))
      · simp

/-- **C115** A message that cannot be decoded is gone: the client stays as it was, and the exception is raised in the call that happened to read it. -/
theorem C115_undecodable (P : CliEnv) (c : Cli) (w : Wire) (e : Exc) (ho : c.sockOpen = true) (hl : c.ser.loads P.recv w = .error e) : c.receive P w = (c, .error e) := by
  simp [Cli.receive, ho, hl]

/-- **C115 fails**: that call can be `result()` of any other request: waiting for request `k`, in any turn in which a message that cannot be decoded is read, raises the exception
of decoding it, whichever request the message answers. -/
theorem C115_fails_other (K : Codec) (k : Nat) (start : Int) (timeout : Option Int) (c : Cli) (P : CliEnv) (w : Wire) (e : Exc) (t : Turn) (ts : List Turn)
    (ho : c.sockOpen = true) (hl : c.ser.loads P.recv w = .error e) (hp : c.fut k = some .pending)
    (ht : expired start timeout t.now = false) (hr : (∃ n a, t = .plain n (some (P, w)) a) ∨ ∃ n a, t = .readable n P w a) :
    c.result K k start timeout (t :: ts) = (c, some (.exc e), ts) ∧ ∃ a, c.waitFor K k start timeout (t :: ts) = (c, .raised e a, ts) := by
  simp only [Cli.fut] at hp
  have hd : c.done k = false := by simp [Cli.done, hp]
  have htn : c.turn K t = (c, .error e) := by
    rcases hr with ⟨n, a, rfl⟩ | ⟨n, a, rfl⟩ <;> exact C115_undecodable P c w e ho hl
  have hw : c.waitFor K k start timeout (t :: ts) = (c, .raised e t.after, ts) := by
    simp [Cli.waitFor, hd, ht, htn]
  exact ⟨by simp only [Cli.result, hw], _, hw⟩

/-- **C115 fails**: likewise for a reply with missing fields: its exception is raised in `result()` of another request, which can be waited for again and get its own reply. -/
theorem C115_fails_other_wrong (K : Codec) (name : Bytes) (ser : Ser) (es : List CEv) (P : CliEnv) (w : Wire) (d : List (Val × Val)) (j k : Nat) (b b' : Bool)
    (ho : ((Cli.init name ser).run K es).1.sockOpen = true) (hr : ((Cli.init name ser).run K es).1.reads P w d) (hj : IsReply P d j) (he : ∀ f, ¬ Says P d f) (hne : j ≠ k)
    (htj : ((Cli.init name ser).run K es).1.table.get? j = some b) (htk : ((Cli.init name ser).run K es).1.table.get? k = some b')
    (start : Int) (timeout : Option Int) (n a : Int) (ts : List Turn) (hn : expired start timeout n = false) :
    ∃ c e, ((Cli.init name ser).run K es).1.waitFor K k start timeout (.readable n P w a :: ts) = (c, .raised e a, ts) ∧ Wrong P d e ∧
      c.Stuck j ∧ c.fut k = some .pending ∧ c.table.get? k = some b' := by
  have hi := run_inv (K := K) es (Cli.inv_init name ser)
  rcases C115_exact K name ser es P w d j b ho hr hj htj with ⟨f, hf, _⟩ | ⟨e', hw, h2, h3⟩
  · exact absurd hf (he f)
  · generalize ((Cli.init name ser).run K es).1 = c at *
    have hpk := hi.pend k b' htk
    have h3' : (c.receive P w).1.Stuck j := h3
    have hrecv : c.receive P w = ({ c with table := c.table.erase j }, .error e') := by
      have hc := processMsg_cases P c (.dict d)
      have e1 : c.receive P w = c.processMsg P (.dict d) := by simp [Cli.receive, ho, show c.ser.loads P.recv w = .ok (.dict d) from hr]
      rw [e1] at h2 h3' ⊢
      generalize c.processMsg P (.dict d) = x at *
      obtain ⟨c', r⟩ := x
      simp only at h2 hc h3'
      subst h2
      generalize hre : (Except.error e' : Except Exc Unit) = r at hc ⊢
      cases hc with
      | ignored h _ _ => rw [h3'.2.1] at htj; cases htj
      | lost hd hr' _ _ _ => cases hd; rw [isReply_unique hr' hj]
      | set => cases hre
      | closed => cases hre
      | disconnect => cases hre
    have hd : c.done k = false := by simp [Cli.done, hpk]
    rw [hrecv] at h3'
    refine ⟨_, e', ?_, hw, h3', hpk, ?_⟩
    · simp [Cli.waitFor, hd, Turn.now, hn, Cli.turn, hrecv, Turn.after]
    · simp [Dict.get?_erase, hne, htk]

/-! ## C40: a closed client -/

/-- **C40** After `close()` a client reads nothing: waiting for a request that is not done raises ZMQError in its first turn that reads, whatever is in the socket, and nothing changes. -/
theorem C40_closed_reads (K : Codec) (c : Cli) (es : List CEv) (k : Nat) (start : Int) (timeout : Option Int) (P : CliEnv) (w : Wire) (t : Turn) (ts : List Turn)
    (hp : ((c.step K .close).1.run K es).1.fut k = some .pending) (ht : expired start timeout t.now = false)
    (hr : (∃ n a, t = .plain n (some (P, w)) a) ∨ ∃ n a, t = .readable n P w a) :
    ((c.step K .close).1.run K es).1.sockOpen = false ∧
    ((c.step K .close).1.run K es).1.receive P w = (((c.step K .close).1.run K es).1, .error .zmqError) ∧
    ((c.step K .close).1.run K es).1.result K k start timeout (t :: ts) = (((c.step K .close).1.run K es).1, some (.exc .zmqError), ts) := by
  have closed : ∀ (es : List CEv) (c : Cli), c.sockOpen = false → (c.run K es).1.sockOpen = false := by
    intro es
    induction es with
    | nil => intro c h; exact h
    | cons e es ih =>
      intro c h
      refine ih _ ?_
      cases e with
      | close => rfl
      | drop k => exact h
      | send E t a o rt sy => exact ((send_const K E t c a o rt sy).2.2.2).trans h
      | recv P w => simp [Cli.receive, h]
  have hc := closed es (c.step K .close).1 rfl
  generalize ((c.step K .close).1.run K es).1 = c' at *
  have hrec : c'.receive P w = (c', .error .zmqError) := by simp [Cli.receive, hc]
  refine ⟨hc, hrec, ?_⟩
  simp only [Cli.fut] at hp
  have hd : c'.done k = false := by simp [Cli.done, hp]
  have htn : c'.turn K t = (c', .error .zmqError) := by rcases hr with ⟨n, a, rfl⟩ | ⟨n, a, rfl⟩ <;> exact hrec
  have hw : c'.waitFor K k start timeout (t :: ts) = (c', .raised .zmqError t.after, ts) := by simp [Cli.waitFor, hd, ht, htn]
  simp only [Cli.result, hw]

namespace Ex

/-- The hypotheses of `C115_exact` and the second case: a reply without `error`; request 0 is stuck, and stays so through a correct reply and a disconnect. -/
example : (cli.run codec sends).1.sockOpen = true ∧ (cli.run codec sends).1.table.get? 0 = some false ∧
    (cli.run codec sends).1.reads cenv (.map [(.str "action", .str "return"), (.str "req_id", .int 0)]) [(.str "action", .str "return"), (.str "req_id", .int 0)] ∧
    IsReply cenv [(.str "action", .str "return"), (.str "req_id", .int 0)] 0 ∧ Wrong cenv [(.str "action", .str "return"), (.str "req_id", .int 0)] .keyError :=
  ⟨rfl, rfl, rfl, ⟨rfl, .int 0, rfl, rfl⟩, .noError rfl⟩
example : let c := ((cli.run codec sends).1.step codec (.recv cenv (.map [(.str "action", .str "return"), (.str "req_id", .int 0)]))).1
    c.Stuck 0 ∧ (c.run codec [.recv cenv (ret 0 (.int 5) .nil), .recv cenv disconnectWire]).1.fut 0 = some .pending := ⟨⟨rfl, rfl, by decide⟩, rfl⟩

/-- A reply with a typed value that cannot be decoded: waiting for request 2 raises because of the reply to request 0. -/
example : (cli.run codec sends).1.ser.loads cenv.recv (ret 0 (.map [(.str "___type_name___", .str "tuple")]) .nil) = .error .keyError ∧
    ((cli.run codec sends).1.result codec 2 0 none [.readable 1 cenv (ret 0 (.map [(.str "___type_name___", .str "tuple")]) .nil) 2]).2.1 = some (.exc .keyError) :=
  ⟨rfl, by rw [(C115_fails_other codec 2 0 none _ cenv _ .keyError _ [] rfl rfl rfl rfl (.inr ⟨1, 2, rfl⟩)).1]⟩

/-- A client closed with request 2 pending and its reply in the socket. -/
example : (((cli.run codec sends).1.step codec .close).1.run codec [.recv cenv (ret 0 (.int 5) .nil)]).1.fut 2 = some .pending ∧ expired 0 none 1 = false := ⟨rfl, rfl⟩

/-- An error of three parts (TypeError). -/
example : ((cli.run codec sends).1.receive cenv (ret 0 .nil (.arr [.str "KeyError", .nil, .nil]))).2 = .error .typeError := rfl

end Ex

namespace Ex

/-! ## Cases that meet the hypotheses -/

/-- A reply without `error`. -/
def noError (k : Int) : Wire := .map [(.str "action", .str "return"), (.str "req_id", .int k)]

example := C115_exact codec [65] .msgpack sends cenv (noError 0) [(.str "action", .str "return"), (.str "req_id", .int 0)] 0 false rfl rfl ⟨rfl, .int 0, rfl, rfl⟩ rfl
theorem noError_wrong (k : Int) : Wrong cenv [(.str "action", .str "return"), (.str "req_id", .int k)] .keyError := .noError rfl
example := C115_exclusive (noError_wrong 0)

/-- The client after the reply: a correct one follows, then a disconnect. -/
theorem noError_stuck : ((cli.run codec sends).1.step codec (.recv cenv (noError 0))).1.Stuck 0 := ⟨rfl, rfl, by decide⟩
example := C115_fails_lost codec _ 0 noError_stuck [.recv cenv (ret 0 (.int 5) .nil), .recv cenv disconnectWire, .drop 2] (by simp)
example := C115_fails_waits codec 0 0 none [.readable 1 cenv (ret 0 (.int 5) .nil) 2] _ noError_stuck (by simp [Turn.Holds])
example := C115_undecodable cenv (cli.run codec sends).1 (ret 0 (.map [(.str "___type_name___", .str "tuple")]) .nil) .keyError rfl rfl
example := C115_fails_other_wrong codec [65] .msgpack sends cenv (noError 0) [(.str "action", .str "return"), (.str "req_id", .int 0)] 0 2 false false
  rfl rfl ⟨rfl, .int 0, rfl, rfl⟩ (C115_exclusive (noError_wrong 0)) (by decide) rfl rfl 0 none 1 2 [] rfl
example := C40_closed_reads codec (cli.run codec sends).1 [.recv cenv (ret 0 (.int 5) .nil)] 2 0 none cenv (ret 2 (.int 5) .nil)
  (.readable 1 cenv (ret 2 (.int 5) .nil) 2) [] rfl rfl (.inr ⟨1, 2, rfl⟩)

end Ex

end Verif
