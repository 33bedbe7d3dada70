import Verif.Model.Connect
import Verif.Props.ClientExample
/-!
# C85, C86, C87: making a connection
-/
namespace Verif

/-! ## Specification -/

/-- What is done with the client in a turn of a wait: user code served meanwhile, and the message read. -/
def Turn.events : Turn → List CEv
  | .plain _ none _ => []
  | .plain _ (some (P, w)) _ => [.recv P w]
  | .qt _ nested _ none _ => nested
  | .qt _ nested _ (some (P, w)) _ => nested ++ [.recv P w]
  | .readable _ P w _ => [.recv P w]
  | .serve _ nested _ _ => nested
  | .idle _ _ => []

/-- The message is the answer of a server to request `k`: a result, not an error. -/
def Answers (ser : Ser) (P : CliEnv) (w : Wire) (k : Nat) : Prop :=
  ∃ d v, ser.loads P.recv w = .ok (.dict d) ∧ IsReply P d k ∧ Says P d (.value v)

/-- The ping with this number. -/
def pingMsg (K : Codec) (ser : Ser) (k : Nat) : List Bytes := [K.num k, K.text "ping", K.text "auto", K.text ser.name, []]

/-! ## Waiting is a history of the client -/

theorem turn_run (K : Codec) (c : Cli) (t : Turn) : ∃ es, (c.turn K t).1 = (c.run K es).1 ∧ ∀ e ∈ es, e ∈ t.events := by
  have one : ∀ P w, (c.receive P w).1 = (c.run K [.recv P w]).1 := fun _ _ => rfl
  cases t with
  | plain n g a =>
    cases g with
    | none => exact ⟨[], rfl, by simp⟩
    | some x => exact ⟨[.recv x.1 x.2], rfl, by simp [Turn.events]⟩
  | readable n P w a => exact ⟨[.recv P w], rfl, by simp [Turn.events]⟩
  | serve n nested r a => exact ⟨nested, rfl, fun e h => h⟩
  | idle n a => exact ⟨[], rfl, by simp⟩
  | qt n nested r g a =>
    cases r with
    | error e => exact ⟨nested, rfl, fun e h => by cases g <;> simp [Turn.events, h]⟩
    | ok u =>
      cases g with
      | none => exact ⟨nested, rfl, fun e h => h⟩
      | some x =>
        obtain ⟨P, w⟩ := x
        refine ⟨nested ++ [.recv P w], ?_, fun e h => h⟩
        rw [run_append_cli]
        show (match (c.run K nested).1.receive P w with
            | (c, .error .timeoutError) => (c, Except.ok ())
            | x => x).1 = ((c.run K nested).1.receive P w).1
        generalize (c.run K nested).1.receive P w = x
        split <;> rfl

theorem waitFor_run (K : Codec) (k : Nat) (start : Int) (timeout : Option Int) (ts : List Turn) : ∀ c : Cli,
    ∃ es, (c.waitFor K k start timeout ts).1 = (c.run K es).1 ∧ ∀ e ∈ es, ∃ t ∈ ts, e ∈ t.events := by
  induction ts with
  | nil => intro c; exact ⟨[], rfl, by simp⟩
  | cons t ts ih =>
    intro c
    simp only [Cli.waitFor]
    split
    · exact ⟨[], rfl, by simp⟩
    · split
      · exact ⟨[], rfl, by simp⟩
      · obtain ⟨es, h1, h2⟩ := turn_run K c t
        split
        · rename_i c1 h
          obtain ⟨es', h3, h4⟩ := ih c1
          rw [h] at h1
          simp only at h1
          refine ⟨es ++ es', ?_, ?_⟩
          · rw [run_append_cli, ← h1]; exact h3
          · intro e he
            rcases List.mem_append.mp he with he | he
            · exact ⟨t, by simp, h2 e he⟩
            · obtain ⟨t', ht, h⟩ := h4 e he
              exact ⟨t', by simp [ht], h⟩
        · rename_i c1 e h
          rw [h] at h1
          exact ⟨es, h1, fun e he => ⟨t, by simp, h2 e he⟩⟩

theorem result_run (K : Codec) (k : Nat) (start : Int) (timeout : Option Int) (c : Cli) (ts : List Turn) :
    ∃ es, (c.result K k start timeout ts).1 = (c.run K es).1 ∧ ∀ e ∈ es, ∃ t ∈ ts, e ∈ t.events := by
  obtain ⟨es, h1, h2⟩ := waitFor_run K k start timeout ts c
  refine ⟨es, ?_, h2⟩
  rw [← h1]
  unfold Cli.result
  generalize c.waitFor K k start timeout ts = x
  obtain ⟨c', w, r⟩ := x
  cases w <;> rfl

theorem result_value {K : Codec} {k : Nat} {start : Int} {timeout : Option Int} {c c' : Cli} {ts rest : List Turn} {v : Val}
    (h : c.result K k start timeout ts = (c', some (.value v), rest)) : c'.fut k = some (.value v) := by
  unfold Cli.result at h
  generalize c.waitFor K k start timeout ts = x at h
  obtain ⟨c1, w, r⟩ := x
  cases w with
  | waiting => simp at h
  | raised e a => simp at h
  | returned =>
    simp only [Prod.mk.injEq] at h
    obtain ⟨rfl, h, -⟩ := h
    simp only [Cli.fut]
    generalize c1.futs.get? k = f at h ⊢
    cases f with
    | none => simp at h
    | some f => cases f <;> simp at h; rw [h]

theorem none_step {K : Codec} {c : Cli} (hi : c.Inv) (e : CEv) (k : Nat) (hn : c.fut k = none) : (c.step K e).1.fut k = none ∨ (c.step K e).1.fut k = some .pending := by
  have ht : c.table.get? k = none := by
    cases h : c.table.get? k with
    | none => rfl
    | some b => have := hi.pend k b h; rw [Cli.fut] at hn; rw [hn] at this; simp at this
  simp only [Cli.fut] at hn
  cases e with
  | drop k' =>
    left
    simp only [Cli.step, Cli.drop, Cli.fut, Dict.get?_erase]
    split <;> simp [hn]
  | close => exact .inl hn
  | send E t a o rt sy =>
    have hc := send_cases K E t c a o rt sy
    have hs : (c.step K (.send E t a o rt sy)).1 = (c.send K E t a o rt sy).2.1 := rfl
    rw [hs]
    generalize (c.send K E t a o rt sy).2.1 = c' at *
    generalize (c.send K E t a o rt sy).2.2.1 = m at *
    generalize (c.send K E t a o rt sy).2.2.2 = r at *
    cases hc with
    | sent _ _ _ _ _ =>
      simp only [Cli.fut, Dict.get?_set]
      split
      · exact .inr rfl
      · exact .inl hn
    | _ => exact .inl hn
  | recv P w =>
    have hs : (c.step K (.recv P w)).1 = (c.receive P w).1 := rfl
    rw [hs]
    left
    unfold Cli.receive
    split
    · exact hn
    · split
      · exact hn
      · rename_i msg hm
        have hc := processMsg_cases P c msg
        generalize (c.processMsg P msg).1 = c' at hc
        generalize (c.processMsg P msg).2 = r at hc
        cases hc with
        | ignored _ _ _ => exact hn
        | lost _ _ _ _ _ => exact hn
        | @set d k' b f' hd hr hb hsay _ =>
          have hk : ¬ k' = k := by rintro rfl; rw [ht] at hb; simp at hb
          simp only [Cli.fut, Dict.get?_set]
          rw [if_neg hk]; exact hn
        | @closed d k' hd hr hb hsay =>
          have hk : ¬ k' = k := by rintro rfl; rw [ht] at hb; simp at hb
          simp [Cli.fut, Cli.serverDisconnected, gone_get, Dict.get?_erase, Dict.get?_set, hk, ht, hn]
        | @disconnect d hd hdis => simp [Cli.fut, Cli.serverDisconnected, gone_get, ht, hn]

/-- a future that does not hold a value and holds one afterwards got it from a reply read meanwhile -/
theorem value_from_reply {K : Codec} {k : Nat} {v : Val} : ∀ (es : List CEv) {c : Cli}, c.Inv → (∀ v, c.fut k ≠ some (.value v)) → (c.run K es).1.fut k = some (.value v) →
    ∃ P w, .recv P w ∈ es ∧ Answers c.ser P w k := by
  intro es
  induction es with
  | nil => intro c hi hp h; exact absurd h (hp v)
  | cons e es ih =>
    intro c hi hp h
    have h' : ((c.step K e).1.run K es).1.fut k = some (.value v) := h
    have hser := (step_const' K c e).2.1
    by_cases hv : ∃ v', (c.step K e).1.fut k = some (.value v')
    · obtain ⟨v', hv⟩ := hv
      cases hf : c.fut k with
      | none => rcases none_step (K := K) hi e k hf with h1 | h1 <;> rw [h1] at hv <;> simp at hv
      | some f =>
        rcases fut_step (K := K) hi e k hf with h1 | ⟨_, h1⟩ | ⟨_, P, w, d, he, hr, h1⟩
        · rw [h1] at hv
          simp only [Option.some.injEq] at hv
          rw [hv] at hf
          exact absurd hf (hp v')
        · rw [h1] at hv; simp at hv
        · rcases h1 with ⟨f', h2, h3, h4⟩ | ⟨_, h4⟩
          · rw [h4] at hv
            simp only [Option.some.injEq] at hv
            subst hv
            exact ⟨P, w, by simp [he], d, v', hr, h2, h3⟩
          · rw [h4] at hv; simp at hv
    · obtain ⟨P, w, hm, ha⟩ := ih (step_inv e hi) (fun v h => hv ⟨v, h⟩) h'
      exact ⟨P, w, by simp [hm], by rw [← hser]; exact ha⟩

/-! ## C85 -/

/-- how the ping of a try is sent -/
theorem ping_sent {K : Codec} {E : SendEnv} {t t' : Refs} {c c' : Cli} {m : Option (List Bytes)} {k : Nat}
    (h : c.send K E t pingReq.1 pingReq.2 "auto" "async" = (t', c', m, .ok (.future k))) :
    m = some (pingMsg K c.ser k) ∧ c'.fut k = some .pending ∧ c'.ser = c.ser ∧ c'.sockOpen = true ∧ c'.disconnected = false := by
  unfold Cli.send at h
  split at h
  · simp at h
  · rename_i hd
    simp only [pingReq] at h
    simp only [show ¬ ("async" = "off") by decide, if_false, if_true] at h
    split at h
    · simp at h
    · rename_i ho
      simp only [Prod.mk.injEq, Except.ok.injEq, Sent.future.injEq] at h
      obtain ⟨-, rfl, rfl, rfl⟩ := h
      refine ⟨rfl, by simp [Cli.fut, Dict.get?_set], rfl, by simpa using ho, by simpa using hd⟩

theorem connect_answered (K : Codec) (E : SendEnv) (t : Refs) (deadline : Int) : ∀ (ps : List PingTry) (c c' : Cli) (ms : List (List Bytes)), c.Inv →
    c.connect K E t deadline ps = (c', ms, .established) →
    ∃ pre p post k, ps = pre ++ p :: post ∧ p.wall < deadline ∧ ms.getLast? = some (pingMsg K c.ser k) ∧ ms.length = pre.length + 1 ∧
      ∃ u ∈ p.turns, ∃ P w, .recv P w ∈ u.events ∧ Answers c.ser P w k := by
  intro ps
  induction ps with
  | nil => intro c c' ms _ h; simp [Cli.connect] at h
  | cons p ps ih =>
    intro c c' ms hi h
    simp only [Cli.connect] at h
    split at h
    · rename_i hw
      split at h
      · simp at h
      · rename_i t1 c1 m k hs
        obtain ⟨hm, hp, hser, ho, -⟩ := ping_sent hs
        have hi1 : c1.Inv := by
          have := send_inv (K := K) (E := E) (t := t) (a := pingReq.1) (o := pingReq.2) (rt := "auto") (sy := "async") hi
          rw [hs] at this
          exact this
        obtain ⟨es, hr1, hr2⟩ := result_run K k p.start (some pingTimeout) c1 p.turns
        split at h
        · simp at h
        · rename_i c2 v rest hres
          simp only [Prod.mk.injEq, and_true] at h
          obtain ⟨rfl, rfl⟩ := h
          have hv := result_value hres
          rw [hres] at hr1
          simp only at hr1
          rw [hr1] at hv
          obtain ⟨P, w, hmem, ha⟩ := value_from_reply es hi1 (by intro v h; rw [hp] at h; simp at h) hv
          obtain ⟨u, hu, hu2⟩ := hr2 _ hmem
          exact ⟨[], p, ps, k, rfl, hw, by rw [hm]; rfl, by rw [hm]; rfl, u, hu, P, w, hu2, by rw [← hser]; exact ha⟩
        · rename_i c2 rest hres
          rw [hres] at hr1
          simp only at hr1
          have hi2 : (c2.drop k).Inv := by
            have := step_inv (K := K) (.drop k) (run_inv (K := K) es hi1)
            rw [← hr1] at this
            exact this
          have hser2 : (c2.drop k).ser = c.ser := by
            show c2.ser = c.ser
            rw [hr1, (run_const K es c1).2.1, hser]
          generalize hx : (c2.drop k).connect K E t deadline ps = x at h
          obtain ⟨c3, ms3, r3⟩ := x
          simp only [Prod.mk.injEq] at h
          obtain ⟨rfl, rfl, rfl⟩ := h
          obtain ⟨pre, q, post, k', h1, h2, h3, h4, u, hu, P, w, h5, h6⟩ := ih (c2.drop k) c3 ms3 hi2 hx
          refine ⟨p :: pre, q, post, k', by rw [h1]; rfl, h2, ?_, by simp [hm, h4], u, hu, P, w, h5, by rw [← hser2]; exact h6⟩
          rw [hser2] at h3
          rw [List.getLast?_append, h3]
          rfl
        · simp at h
      · simp at h
    · simp at h

/-- **C85** If `ensure_connection` of a new client returns, the ping it sent last was answered with a result, and that answer was read in the same try, which began before the
deadline. In particular a client that could be made has spoken with a server. -/
theorem C85_answered (K : Codec) (E : SendEnv) (t : Refs) (name : Bytes) (ser : Ser) (start timeout : Int) (ps : List PingTry) (c' : Cli) (ms : List (List Bytes))
    (h : (Cli.init name ser).ensureConnection K E t false start timeout ps = (c', ms, .established)) :
    ∃ pre p post k, ps = pre ++ p :: post ∧ p.wall < start + timeout ∧ ms.getLast? = some (pingMsg K ser k) ∧ ms.length = pre.length + 1 ∧
      ∃ u ∈ p.turns, ∃ P w, .recv P w ∈ u.events ∧ Answers ser P w k :=
  connect_answered K E t (start + timeout) ps _ c' ms (Cli.inv_init name ser) h

/-- **C85** While a connection is being established, `ensure_connection` on the same client returns at once and changes and sends nothing: it neither waits nor recurses. -/
theorem C85_nested (K : Codec) (E : SendEnv) (t : Refs) (start timeout : Int) (c : Cli) (ps : List PingTry) :
    c.ensureConnection K E t true start timeout ps = (c, [], .established) := rfl

/-- **C85** The TimeoutError of `ensure_connection` is raised only when the clock has reached the deadline. -/
theorem C85_not_early (K : Codec) (E : SendEnv) (t : Refs) (start timeout : Int) (ps : List PingTry) : ∀ (c c' : Cli) (ms : List (List Bytes)) (wall : Int),
    c.ensureConnection K E t false start timeout ps = (c', ms, .gaveUp wall) → start + timeout ≤ wall ∧ ∃ p ∈ ps, p.wall = wall := by
  intro c c' ms wall
  simp only [Cli.ensureConnection, Bool.false_eq_true, if_false]
  induction ps generalizing c c' ms with
  | nil => intro h; simp [Cli.connect] at h
  | cons p ps ih =>
    intro h
    simp only [Cli.connect] at h
    split at h
    · split at h
      · simp at h
      · rename_i t1 c1 m k hs
        split at h
        · simp at h
        · simp at h
        · rename_i c2 rest hres
          generalize hx : (c2.drop k).connect K E t (start + timeout) ps = x at h
          obtain ⟨c3, ms3, r3⟩ := x
          simp only [Prod.mk.injEq] at h
          obtain ⟨rfl, rfl, rfl⟩ := h
          obtain ⟨h1, q, hq, h2⟩ := ih (c2.drop k) c3 ms3 hx
          exact ⟨h1, q, by simp [hq], h2⟩
        · simp at h
      · simp at h
    · rename_i hw
      simp only [Prod.mk.injEq, Connecting.gaveUp.injEq] at h
      obtain ⟨-, -, rfl⟩ := h
      exact ⟨by omega, p, by simp, rfl⟩

/-! ## C86 -/

/-- tries after others that timed out -/
theorem connect_append (K : Codec) (E : SendEnv) (t : Refs) (deadline : Int) (qs : List PingTry) : ∀ (ps : List PingTry) (c c1 : Cli) (ms : List (List Bytes)),
    c.connect K E t deadline ps = (c1, ms, .again) →
    c.connect K E t deadline (ps ++ qs) = ((c1.connect K E t deadline qs).1, ms ++ (c1.connect K E t deadline qs).2.1, (c1.connect K E t deadline qs).2.2) := by
  intro ps
  induction ps with
  | nil =>
    intro c c1 ms h
    simp only [Cli.connect, Prod.mk.injEq] at h
    obtain ⟨rfl, rfl, -⟩ := h
    rfl
  | cons p ps ih =>
    intro c c1 ms h
    simp only [List.cons_append]
    simp only [Cli.connect] at h ⊢
    split at h
    · rename_i hw
      rw [if_pos hw]
      split at h
      · simp at h
      · rename_i t1 c2 m k hs
        split at h
        · simp at h
        · simp at h
        · rename_i c3 rest hres
          generalize hx : (c3.drop k).connect K E t deadline ps = x at h
          obtain ⟨c4, ms4, r4⟩ := x
          simp only [Prod.mk.injEq] at h
          obtain ⟨rfl, rfl, rfl⟩ := h
          rw [ih _ _ _ hx]
          simp
        · simp at h
      · simp at h
    · simp at h

/-- connecting is a history of the client: pings, what happens in the turns, and the loss of futures -/
theorem connect_run (K : Codec) (E : SendEnv) (t : Refs) (deadline : Int) : ∀ (ps : List PingTry) (c c1 : Cli) (ms : List (List Bytes)) (r : Connecting),
    c.connect K E t deadline ps = (c1, ms, r) → ∃ es, c1 = (c.run K es).1 ∧
      ∀ e ∈ es, e = .send E t "ping" none "auto" "async" ∨ (∃ k, e = .drop k) ∨ ∃ p ∈ ps, ∃ u ∈ p.turns, e ∈ u.events := by
  intro ps
  induction ps with
  | nil =>
    intro c c1 ms r h
    simp only [Cli.connect, Prod.mk.injEq] at h
    exact ⟨[], h.1.symm, by simp⟩
  | cons p ps ih =>
    intro c c1 ms r h
    have hsend : ∀ t' c' m x, c.send K E t pingReq.1 pingReq.2 "auto" "async" = (t', c', m, x) → c' = (c.run K [.send E t "ping" none "auto" "async"]).1 := by
      intro t' c' m x hs
      show c' = (c.send K E t pingReq.1 pingReq.2 "auto" "async").2.1
      rw [hs]
    have hone : ∀ e : CEv, e ∈ [CEv.send E t "ping" none "auto" "async"] → e = .send E t "ping" none "auto" "async" ∨ (∃ k, e = .drop k) ∨ ∃ p' ∈ p :: ps, ∃ u ∈ p'.turns, e ∈ u.events :=
      fun e he => .inl (by simpa using he)
    simp only [Cli.connect] at h
    split at h
    · split at h
      · rename_i t1 c2 m e hs
        simp only [Prod.mk.injEq] at h
        exact ⟨_, h.1.symm.trans (hsend _ _ _ _ hs), hone⟩
      · rename_i t1 c2 m k hs
        obtain ⟨es, hr1, hr2⟩ := result_run K k p.start (some pingTimeout) c2 p.turns
        have two : ∀ c3, c3 = (c2.run K es).1 → c3 = (c.run K ([.send E t "ping" none "auto" "async"] ++ es)).1 := by
          intro c3 h3
          rw [run_append_cli, ← hsend _ _ _ _ hs]
          exact h3
        have htwo : ∀ e ∈ [CEv.send E t "ping" none "auto" "async"] ++ es, e = .send E t "ping" none "auto" "async" ∨ (∃ k, e = .drop k) ∨ ∃ p' ∈ p :: ps, ∃ u ∈ p'.turns, e ∈ u.events := by
          intro e he
          rcases List.mem_append.mp he with he | he
          · exact hone e he
          · obtain ⟨u, hu, hu2⟩ := hr2 e he
            exact .inr (.inr ⟨p, by simp, u, hu, hu2⟩)
        split at h
        · rename_i c3 rest hres
          rw [hres] at hr1
          simp only [Prod.mk.injEq] at h
          exact ⟨_, two _ (h.1.symm.trans hr1), htwo⟩
        · rename_i c3 v rest hres
          rw [hres] at hr1
          simp only [Prod.mk.injEq] at h
          exact ⟨_, two _ (h.1.symm.trans hr1), htwo⟩
        · rename_i c3 rest hres
          rw [hres] at hr1
          simp only at hr1
          generalize hx : (c3.drop k).connect K E t deadline ps = x at h
          obtain ⟨c4, ms4, r4⟩ := x
          simp only [Prod.mk.injEq] at h
          obtain ⟨rfl, rfl, rfl⟩ := h
          obtain ⟨es', h1, h2⟩ := ih _ _ _ _ hx
          refine ⟨([.send E t "ping" none "auto" "async"] ++ es) ++ ([.drop k] ++ es'), ?_, ?_⟩
          · rw [run_append_cli, ← two _ hr1, run_append_cli]
            exact h1
          · intro e he
            rcases List.mem_append.mp he with he | he
            · exact htwo e he
            · rcases List.mem_append.mp he with he | he
              · exact .inr (.inl ⟨k, by simpa using he⟩)
              · rcases h2 e he with h | h | ⟨q, hq, h⟩
                · exact .inl h
                · exact .inr (.inl h)
                · exact .inr (.inr ⟨q, by simp [hq], h⟩)
        · rename_i c3 r' rest _ _ hres
          rw [hres] at hr1
          simp only [Prod.mk.injEq] at h
          exact ⟨_, two _ (h.1.symm.trans hr1), htwo⟩
      · rename_i t1 c2 m x _ hs
        simp only [Prod.mk.injEq] at h
        exact ⟨_, h.1.symm.trans (hsend _ _ _ _ hs), hone⟩
    · simp only [Prod.mk.injEq] at h
      exact ⟨[], h.1.symm, by simp⟩

/-- reading an answer to another request -/
theorem other_reply {K : Codec} {c : Cli} {P : CliEnv} {w : Wire} {d : List (Val × Val)} {k k' : Nat} (ho : c.sockOpen = true) (hr : c.reads P w d) (hm : ServerMsg d)
    (hk' : IsReply P d k') (hne : k' ≠ k) (hnc : ∀ j, c.table.get? j ≠ some true) :
    (c.step K (.recv P w)).1.fut k = c.fut k ∧ (c.step K (.recv P w)).1.table.get? k = c.table.get? k ∧
    (∀ j, (c.step K (.recv P w)).1.table.get? j ≠ some true) ∧ (c.step K (.recv P w)).1.sockOpen = true ∧ (c.step K (.recv P w)).1.ser = c.ser := by
  have hs : (c.step K (.recv P w)).1 = (c.processMsg P (.dict d)).1 := by
    show (c.receive P w).1 = _
    unfold Cli.receive
    rw [if_neg (by simp [ho]), hr]
  have hconst := processMsg_const P c (.dict d)
  rw [hs]
  have hc := processMsg_cases P c (.dict d)
  refine ⟨?_, ?_, ?_, hconst.2.2.2.1.trans ho, hconst.2.1⟩ <;> clear hconst hs <;>
    generalize (c.processMsg P (.dict d)).1 = c' at hc ⊢ <;> generalize (c.processMsg P (.dict d)).2 = r at hc
  · cases hc with
    | ignored _ _ _ => rfl
    | lost hd _ _ _ hns => cases hd; exact absurd hm hns
    | set hd hrep _ _ _ =>
      cases hd
      have := isReply_unique hrep hk'; subst this
      simp only [Cli.fut, Dict.get?_set]; rw [if_neg hne]
    | closed hd hrep hb _ => exact absurd hb (hnc _)
    | disconnect hd h => cases hd; exact absurd h (isReply_disconnect hk')
  · cases hc with
    | ignored _ _ _ => rfl
    | lost hd _ _ _ hns => cases hd; exact absurd hm hns
    | set hd hrep _ _ _ =>
      cases hd
      have := isReply_unique hrep hk'; subst this
      simp only [Dict.get?_erase]; rw [if_neg hne]
    | closed hd hrep hb _ => exact absurd hb (hnc _)
    | disconnect hd h => cases hd; exact absurd h (isReply_disconnect hk')
  · cases hc with
    | ignored _ _ _ => exact hnc
    | lost hd _ _ _ hns => cases hd; exact absurd hm hns
    | set hd hrep _ _ _ =>
      intro j
      simp only [Dict.get?_erase]
      split
      · simp
      · exact hnc j
    | closed hd hrep hb _ => exact absurd hb (hnc _)
    | disconnect hd h => cases hd; exact absurd h (isReply_disconnect hk')

theorem wait_value {K : Codec} {k : Nat} {start : Int} {timeout : Option Int} {P : CliEnv} {w : Wire} {u : Turn} {post : List Turn} :
    ∀ (pre : List (Turn × CliEnv × Wire)) {c : Cli}, c.Inv → c.sockOpen = true → c.fut k = some .pending → c.table.get? k = some false → (∀ j, c.table.get? j ≠ some true) →
    (∀ x ∈ pre, x.1.Reads start timeout c x.2.1 x.2.2 ∧ ∃ d k', c.reads x.2.1 x.2.2 d ∧ IsReply x.2.1 d k' ∧ k' ≠ k) → u.Reads start timeout c P w → Answers c.ser P w k →
    ∃ c' v, c.waitFor K k start timeout (pre.map (·.1) ++ u :: post) = (c', .returned, post) ∧ c'.fut k = some (.value v) := by
  intro pre
  induction pre with
  | nil =>
    intro c hi ho hp ht hnc _ hu ha
    have hd : c.done k = false := by simp only [Cli.fut] at hp; simp [Cli.done, hp]
    obtain ⟨d, v, h1, h2, h3⟩ := ha
    have hset := C27_reply_sets_inv (K := K) hi ho h1 h2 h3 ht
    have hdone : (c.step K (.recv P w)).1.done k = true := by
      simp only [Cli.fut] at hset
      simp only [Cli.done, hset]
    refine ⟨(c.step K (.recv P w)).1, v, ?_, hset⟩
    simp only [List.map_nil, List.nil_append, Cli.waitFor, hd, hu.1, Bool.false_eq_true, if_false]
    rw [turn_reads (K := K) ho hu]
    exact (C33_done_returns K k start timeout post _ hdone).1
  | cons x pre ih =>
    intro c hi ho hp ht hnc hpre hu ha
    have hd : c.done k = false := by simp only [Cli.fut] at hp; simp [Cli.done, hp]
    obtain ⟨hx, d, k', hr, hk', hne⟩ := hpre x (by simp)
    have hsm : ServerMsg d := by
      obtain ⟨_, ⟨d', hr', hs'⟩, _⟩ := hx
      have : d' = d := by rw [Cli.reads] at hr hr'; rw [hr] at hr'; simpa using hr'.symm
      exact this ▸ hs'
    obtain ⟨o1, o2, o3, o4, o5⟩ := other_reply (K := K) ho hr hsm hk' hne hnc
    have tr : ∀ {t' : Turn} {P' w'}, t'.Reads start timeout c P' w' → t'.Reads start timeout (c.step K (.recv x.2.1 x.2.2)).1 P' w' := by
      intro t' P' w' ⟨h1, ⟨d, h2, h3⟩, h4⟩
      exact ⟨h1, ⟨d, by rw [Cli.reads, o5]; exact h2, h3⟩, h4⟩
    obtain ⟨c', v, h1, h2⟩ := ih (step_inv _ hi) o4 (o1.trans hp) (o2.trans ht) o3
      (fun y hy => ⟨tr (hpre y (List.mem_cons_of_mem _ hy)).1, by
        obtain ⟨d, k', a, b⟩ := (hpre y (List.mem_cons_of_mem _ hy)).2
        exact ⟨d, k', by rw [Cli.reads, o5]; exact a, b⟩⟩) (tr hu) (by rw [o5]; exact ha)
    refine ⟨c', v, ?_, h2⟩
    simp only [List.map_cons, List.cons_append, Cli.waitFor, hd, hx.1, Bool.false_eq_true, if_false]
    rw [turn_reads (K := K) ho hx]
    exact h1

/-- **C86** (partial) If after any number of tries that timed out a ping is sent before the deadline and its answer is read within 0.1 s of it, after any answers to earlier requests,
the connection is established. (`c` is the client then; it has no close request pending.) Missing: answers that take longer than 0.1 s, see `C86_fails`. -/
theorem C86_fast_partial (K : Codec) (E : SendEnv) (t : Refs) (name : Bytes) (ser : Ser) (start timeout : Int) (ps qs : List PingTry) (c : Cli) (ms : List (List Bytes))
    (hps : (Cli.init name ser).ensureConnection K E t false start timeout ps = (c, ms, .again)) (hd : c.disconnected = false) (ho : c.sockOpen = true)
    (hnc : ∀ j, c.table.get? j ≠ some true)
    (p : PingTry) (hw : p.wall < start + timeout) (pre : List (Turn × CliEnv × Wire)) (u : Turn) (post : List Turn) (P : CliEnv) (w : Wire)
    (hp : p.turns = pre.map (·.1) ++ u :: post)
    (hpre : ∀ x ∈ pre, x.1.Reads p.start (some pingTimeout) c x.2.1 x.2.2 ∧ ∃ d k', c.reads x.2.1 x.2.2 d ∧ IsReply x.2.1 d k' ∧ k' < c.nextId)
    (hu : u.Reads p.start (some pingTimeout) c P w) (ha : Answers ser P w c.nextId) :
    ∃ c', (Cli.init name ser).ensureConnection K E t false start timeout (ps ++ p :: qs) = (c', ms ++ [pingMsg K ser c.nextId], .established) := by
  simp only [Cli.ensureConnection, Bool.false_eq_true, if_false] at hps ⊢
  rw [connect_append K E t _ (p :: qs) ps _ c ms hps]
  obtain ⟨es, hes, -⟩ := connect_run K E t _ ps _ c ms _ hps
  have hi : c.Inv := hes ▸ run_inv (K := K) es (Cli.inv_init name ser)
  have hser : c.ser = ser := by rw [hes, (run_const K es _).2.1]; rfl
  have hsend : c.send K E t pingReq.1 pingReq.2 "auto" "async" =
      (t, { c with nextId := c.nextId + 1, table := c.table.set c.nextId false, futs := c.futs.set c.nextId .pending }, some (pingMsg K c.ser c.nextId), .ok (.future c.nextId)) := by
    unfold Cli.send
    simp only [hd, ho, pingReq, Bool.false_eq_true, if_false, show ¬ ("async" = "off") by decide, if_true, Nat.add_sub_cancel]
    rfl
  have hi1 := send_inv (K := K) (E := E) (t := t) (a := pingReq.1) (o := pingReq.2) (rt := "auto") (sy := "async") hi
  rw [hsend] at hi1
  simp only at hi1
  obtain ⟨c', v, h1, h2⟩ := wait_value (K := K) (k := c.nextId) (start := p.start) (timeout := some pingTimeout) (P := P) (w := w) (u := u) (post := post) pre hi1 ho
    (by simp [Cli.fut, Dict.get?_set]) (by simp [Dict.get?_set])
    (by intro j; simp only [Dict.get?_set]; split
        · simp
        · exact hnc j)
    (fun x hx => by
      obtain ⟨h1, d, k', h2, h3, h4⟩ := hpre x hx
      exact ⟨h1, d, k', h2, h3, by omega⟩) hu (by rw [hser]; exact ha)
  have hres : ({ c with nextId := c.nextId + 1, table := c.table.set c.nextId false, futs := c.futs.set c.nextId .pending } : Cli).result K c.nextId p.start (some pingTimeout) p.turns =
      (c', some (.value v), post) := by
    unfold Cli.result
    rw [hp, h1]
    simp only [Cli.fut] at h2
    simp only [h2]
  refine ⟨c', ?_⟩
  simp only [Cli.connect, if_pos hw, hsend, hres]
  rw [hser]
  rfl

/-- A server whose answers take 0.15 s: each of ten pings is sent, waited for 0.1 s, and the answer to the ping before it is read 0.05 s after. -/
def Ex.slowTry (i : Int) : PingTry :=
  ⟨i * pingTimeout, i * pingTimeout, (if i = 0 then [] else [.plain (i * pingTimeout) (some (cenv, ret (i - 1) (.str "pong") .nil)) (i * pingTimeout + 50 * msec)]) ++
    [.plain (i * pingTimeout + (if i = 0 then 0 else 50 * msec)) none ((i + 1) * pingTimeout)]⟩

/-- The reading of the clock with which `ensure_connection` gave up. -/
def Connecting.gaveUpAt : Connecting → Option Int
  | .gaveUp w => some w
  | _ => none

theorem slow_fair (i : Int) : ∀ u ∈ (Ex.slowTry i).turns, u.Fair (i * pingTimeout) (some pingTimeout) := by
  intro u hu
  have h1 : rcvTimeo 100000000 = 100 := by decide
  have h2 : rcvTimeo 50000000 = 50 := by decide
  by_cases h : i = 0
  · subst h
    simp only [Ex.slowTry, if_true, List.nil_append, List.mem_singleton] at hu
    subst hu
    exact ⟨by decide, by decide, pingTimeout, rfl, by decide⟩
  · simp only [Ex.slowTry, if_neg h, List.cons_append, List.nil_append, List.mem_cons, List.not_mem_nil, or_false] at hu
    rcases hu with rfl | rfl
    · refine ⟨?_, ?_, trivial⟩ <;> simp only [Turn.now, Turn.after, pingTimeout, msec] <;> omega
    · refine ⟨?_, ?_, pingTimeout, rfl, ?_⟩
      · simp only [Turn.now, pingTimeout, msec]; omega
      · simp only [Turn.now, Turn.after, pingTimeout, msec]; omega
      · rw [show pingTimeout - (i * pingTimeout + 50 * msec - i * pingTimeout) = 50000000 by simp only [pingTimeout, msec]; omega, h2]
        simp only [pingTimeout, msec]; omega

/-- **C86 fails**: with a server that answers every ping after 0.15 s, well within the timeout of 1 s, connecting ends with a TimeoutError after ten pings, nine of them answered: the
answers come when their futures are gone. The waits are as zmq and the clock make them. -/
theorem C86_fails :
    let r := Ex.cli.ensureConnection Ex.codec Ex.csend Refs.init false 0 (1000 * msec) (([0, 1, 2, 3, 4, 5, 6, 7, 8, 9].map Ex.slowTry) ++ [⟨1000 * msec, 1000 * msec, []⟩])
    r.2.2.gaveUpAt = some (1000 * msec) ∧ r.2.1 = [0, 1, 2, 3, 4, 5, 6, 7, 8, 9].map (pingMsg Ex.codec .msgpack) ∧
    ∀ i : Int, ∀ u ∈ (Ex.slowTry i).turns, u.Fair (Ex.slowTry i).start (some pingTimeout) := by
  refine ⟨by decide +kernel, by decide +kernel, slow_fair⟩

/-- A server that answers after 0.15 s once, then after 0.03 s. -/
def Ex.fastTry : PingTry := ⟨pingTimeout, pingTimeout, [.plain pingTimeout (some (cenv, ret 0 (.str "pong") .nil)) (pingTimeout + 20 * msec),
  .plain (pingTimeout + 20 * msec) (some (cenv, ret 1 (.str "pong") .nil)) (pingTimeout + 30 * msec)]⟩

/-- it connects (C85, C86) -/
example : ∃ c, Ex.cli.ensureConnection Ex.codec Ex.csend Refs.init false 0 (1000 * msec) [Ex.slowTry 0, Ex.fastTry] =
    (c, [pingMsg Ex.codec .msgpack 0, pingMsg Ex.codec .msgpack 1], .established) := ⟨_, rfl⟩
/-- the hypotheses of C86 -/
example : ∃ c, Ex.cli.ensureConnection Ex.codec Ex.csend Refs.init false 0 (1000 * msec) [Ex.slowTry 0] = (c, [pingMsg Ex.codec .msgpack 0], .again) ∧
    c.disconnected = false ∧ c.sockOpen = true ∧ c.table = [] ∧ c.nextId = 1 := ⟨_, rfl, rfl, rfl, rfl, rfl⟩
example : Answers .msgpack Ex.cenv (Ex.ret 1 (.str "pong") .nil) 1 :=
  ⟨[(.str "action", .str "return"), (.str "req_id", .int 1), (.str "rval", .str "pong"), (.str "error", .none)], .str "pong", rfl, ⟨rfl, .int 1, rfl, rfl⟩, rfl, rfl⟩
example : (Turn.plain (pingTimeout + 20 * msec) (some (Ex.cenv, Ex.ret 1 (.str "pong") .nil)) (pingTimeout + 30 * msec)).Reads pingTimeout (some pingTimeout) Ex.cli
    Ex.cenv (Ex.ret 1 (.str "pong") .nil) :=
  ⟨by decide, ⟨[(.str "action", .str "return"), (.str "req_id", .int 1), (.str "rval", .str "pong"), (.str "error", .none)], rfl,
    .inr ⟨rfl, ⟨1, rfl⟩, ⟨.str "pong", rfl⟩, .inl rfl⟩⟩, .inl ⟨_, _, rfl⟩⟩

/-! ## C87 -/

/-- **C87 fails**: a client that cannot be made leaves a server behind in its thread, whether the connection is refused or a client for the address exists already. -/
theorem C87_fails :
    (Place.construct ⟨false, false⟩ ⟨.ok (some "closed"), true, .ok (), .ok ()⟩ true "msgpack") = (⟨true, false⟩, .error .connectionRefused) ∧
    (Place.construct ⟨false, true⟩ ⟨.ok (some "open"), true, .ok (), .ok ()⟩ true "msgpack") = (⟨true, true⟩, .error .keyError) := ⟨rfl, rfl⟩

/-- **C87** (partial) In all cases, a constructor that raises leaves the registry of clients as it was, and a server in the thread as it was unless it was told to start one.
Missing: with `start_local_server` the server stays, see `C87_fails`. -/
theorem C87_registry_partial (s : Place) (v : CtorEnv) (startLocalServer : Bool) (serializer : String) (e : Exc) (h : (s.construct v startLocalServer serializer).2 = .error e) :
    (s.construct v startLocalServer serializer).1.cached = s.cached ∧
    (startLocalServer = false ∨ s.server = true → (s.construct v startLocalServer serializer).1 = s) ∧
    (s.construct v startLocalServer serializer).1.server = (s.server || startLocalServer) := by
  unfold Place.construct at h ⊢
  generalize v.body serializer = r at h ⊢
  obtain ⟨sv, ca⟩ := s
  cases r <;> cases startLocalServer <;> cases sv <;> cases ca <;> simp at h ⊢

/-- **C87** A constructor that returns has registered its client; it returns only if no client was registered, the address is not known to refuse connections, `reentrant` is a bool, the
serializer is known, and `ensure_connection` returned. -/
theorem C87_success (s : Place) (v : CtorEnv) (startLocalServer : Bool) (serializer : String) :
    (s.construct v startLocalServer serializer).2 = .ok () ↔
      s.cached = false ∧ (∃ p, v.address = .ok p ∧ p ≠ some "closed") ∧ v.reentrant = true ∧ v.zmq = .ok () ∧ (serializer = "msgpack" ∨ serializer = "json") ∧ v.ensure = .ok () := by
  have hser : serOf serializer = none ↔ ¬ (serializer = "msgpack" ∨ serializer = "json") := by
    unfold serOf
    split <;> simp_all
  have hb : v.body serializer = .ok () ↔ (∃ p, v.address = .ok p ∧ p ≠ some "closed") ∧ v.reentrant = true ∧ v.zmq = .ok () ∧ (serializer = "msgpack" ∨ serializer = "json") ∧
      v.ensure = .ok () := by
    unfold CtorEnv.body
    cases hA : v.address with
    | error e => simp [bind, Except.bind]
    | ok p =>
      by_cases hp : p = some "closed"
      · simp [bind, Except.bind, hp, throw, throwThe, MonadExceptOf.throw]
      · cases hR : v.reentrant with
        | false => simp [bind, Except.bind, hp, throw, throwThe, MonadExceptOf.throw, pure, Except.pure]
        | true =>
          cases hZ : v.zmq with
          | error e => simp [bind, Except.bind, hp, pure, Except.pure]
          | ok u =>
            by_cases hs : serOf serializer = none
            · simp [bind, Except.bind, hp, pure, Except.pure, hs, throw, throwThe, MonadExceptOf.throw]
              intro h
              exact absurd h (hser.1 hs)
            · have := Classical.not_not.1 (fun h => hs (hser.2 h))
              simp [bind, Except.bind, hp, pure, Except.pure, hs, this]
  rw [← hb]
  unfold Place.construct
  have hc : ∀ b : Bool, (if b = true then { s with server := true } else s).cached = s.cached := by intro b; cases b <;> rfl
  simp only [hc]
  cases s.cached with
  | true => simp
  | false =>
    simp only [Bool.false_eq_true, if_false, true_and]
    cases v.body serializer <;> simp

/-- **C87** A constructor that returns has registered the client, so that the next `get_client` of this thread for the address finds it and another constructor call for it raises. -/
theorem C87_registered (s : Place) (v : CtorEnv) (startLocalServer : Bool) (serializer : String) (h : (s.construct v startLocalServer serializer).2 = .ok ()) :
    (s.construct v startLocalServer serializer).1 = ⟨s.server || startLocalServer, true⟩ ∧
    ∀ v' b ser', ((s.construct v startLocalServer serializer).1.construct v' b ser').2 ≠ .ok () := by
  have h1 : (s.construct v startLocalServer serializer).1 = ⟨s.server || startLocalServer, true⟩ := by
    unfold Place.construct at h ⊢
    generalize v.body serializer = r at h ⊢
    obtain ⟨sv, ca⟩ := s
    cases r <;> cases startLocalServer <;> cases sv <;> cases ca <;> simp at h ⊢
  refine ⟨h1, fun v' b ser' h2 => ?_⟩
  have := ((C87_success _ v' b ser').1 h2).1
  rw [h1] at this
  cases this

example : (Place.construct ⟨false, false⟩ ⟨.ok (some "open"), true, .ok (), .ok ()⟩ false "json") = (⟨false, true⟩, .ok ()) ∧
    (Place.construct ⟨false, false⟩ ⟨.ok (some "timeout"), true, .ok (), .error .timeoutError⟩ false "json") = (⟨false, false⟩, .error .timeoutError) := ⟨rfl, rfl⟩

/-! ## The theorems on these cases -/

example := C85_answered Ex.codec Ex.csend Refs.init [65] .msgpack 0 (1000 * msec) [Ex.slowTry 0, Ex.fastTry] _ _ rfl
example := C85_not_early Ex.codec Ex.csend Refs.init 0 (1000 * msec) [Ex.slowTry 0, ⟨1000 * msec, 1000 * msec, []⟩] Ex.cli _ _ (1000 * msec) rfl

theorem Ex.pong_fields (k : Int) : ServerMsg [(.str "action", .str "return"), (.str "req_id", .int k), (.str "rval", .str "pong"), (.str "error", .none)] :=
  .inr ⟨rfl, ⟨k, rfl⟩, ⟨.str "pong", rfl⟩, .inl rfl⟩

example := C86_fast_partial Ex.codec Ex.csend Refs.init [65] .msgpack 0 (1000 * msec) [Ex.slowTry 0] [Ex.slowTry 2] _ _ rfl rfl rfl (by intro j; exact nofun)
  Ex.fastTry (by decide) [(.plain pingTimeout (some (Ex.cenv, Ex.ret 0 (.str "pong") .nil)) (pingTimeout + 20 * msec), Ex.cenv, Ex.ret 0 (.str "pong") .nil)]
  (.plain (pingTimeout + 20 * msec) (some (Ex.cenv, Ex.ret 1 (.str "pong") .nil)) (pingTimeout + 30 * msec)) [] Ex.cenv (Ex.ret 1 (.str "pong") .nil) rfl
  (by
    intro x hx
    simp only [List.mem_cons, List.not_mem_nil, or_false] at hx
    subst hx
    exact ⟨⟨by decide, ⟨_, rfl, Ex.pong_fields 0⟩, .inl ⟨_, _, rfl⟩⟩, _, 0, rfl, ⟨rfl, .int 0, rfl, rfl⟩, by decide⟩)
  ⟨by decide, ⟨_, rfl, Ex.pong_fields 1⟩, .inl ⟨_, _, rfl⟩⟩
  ⟨[(.str "action", .str "return"), (.str "req_id", .int 1), (.str "rval", .str "pong"), (.str "error", .none)], .str "pong", rfl, ⟨rfl, .int 1, rfl, rfl⟩, rfl, rfl⟩

example := C87_registry_partial ⟨true, false⟩ ⟨.ok (some "timeout"), true, .ok (), .error .timeoutError⟩ true "json" .timeoutError rfl
example := C87_registered ⟨false, false⟩ ⟨.ok (some "open"), true, .ok (), .ok ()⟩ true "json" rfl

end Verif
