import Verif.Spec.LogNet
import Verif.Proof.LogRemote
import Verif.Props.LogRemote
/-!
# Lemmas for C139 and C140
-/
namespace Verif

theorem net_run_append (L : Lib) (fmt lt) (n : LogNetSt) (a b : List LogNetEv) :
    n.run L fmt lt (a ++ b) = (((n.run L fmt lt a).1.run L fmt lt b).1, (n.run L fmt lt a).2 ++ ((n.run L fmt lt a).1.run L fmt lt b).2) := by
  induction a generalizing n with
  | nil => simp [LogNetSt.run]
  | cons e a ih => simp [LogNetSt.run, ih]

theorem net_run_snoc (L : Lib) (fmt lt) (n : LogNetSt) (es : List LogNetEv) (e : LogNetEv) :
    n.run L fmt lt (es ++ [e]) = (((n.run L fmt lt es).1.step L fmt lt e).1, (n.run L fmt lt es).2 ++ ((n.run L fmt lt es).1.step L fmt lt e).2) := by
  rw [net_run_append]; simp [LogNetSt.run]

theorem inProc_append (i : Nat) (a b : List LogNetEv) : inProc i (a ++ b) = inProc i a ++ inProc i b := List.filterMap_append
theorem ofServer_append (a b : List LogNetOut) : ofServer (a ++ b) = ofServer a ++ ofServer b := List.filterMap_append
theorem arrivals_append (a b : List LogNetOut) : arrivals (a ++ b) = arrivals a ++ arrivals b := List.filterMap_append
theorem fromProc_append {α : Type} (i : Nat) (a b : List (Nat × α)) : fromProc i (a ++ b) = fromProc i a ++ fromProc i b := List.filterMap_append
theorem wiresTo_append (x : Bytes) (a b : List SenderOut) : wiresTo x (a ++ b) = wiresTo x a ++ wiresTo x b := List.filterMap_append

theorem ofServer_server (l : List LogSrvOut) : ofServer (l.map .server) = l := by
  induction l with
  | nil => rfl
  | cons o l ih => simpa [ofServer] using ih

theorem ofServer_sender (i : Nat) (l : List SenderOut) : ofServer (l.map (.sender i)) = [] := by
  induction l with
  | nil => rfl
  | cons o l ih => simpa [ofServer] using ih

theorem arrivals_server (l : List LogSrvOut) : arrivals (l.map .server) = [] := by
  induction l with
  | nil => rfl
  | cons o l ih => simpa [arrivals] using ih

theorem arrivals_sender (i : Nat) (l : List SenderOut) : arrivals (l.map (.sender i)) = [] := by
  induction l with
  | nil => rfl
  | cons o l ih => simpa [arrivals] using ih

/-- What is known of a net after the history `es`, in which the server saw `fs`. -/
structure NetAt (L : Lib) (fmt : Val → Val → Except Exc Val) (lt : Nat → Int → Bool) (N : Nat → LogNames) (a : Bytes) (flt : Bool) (levels : List Int)
    (es : List LogNetEv) (fs : List LogSrvEv) (os : List LogNetOut) (n : LogNetSt) : Prop where
  addr : n.addr = a
  snd : ∀ i, n.snd i = ((SenderSt.init (N i) a).run L fmt (inProc i es)).1
  sent : ∀ i, wiresTo a ((SenderSt.init (N i) a).run L fmt (inProc i es)).2 = fromProc i (arrivals os) ++ n.chan i
  srv : LogSrvSt.run lt { filter := flt, levels } fs = (n.srv, ofServer os)
  got : arrivedOf fs = (arrivals os).map fun x => some x.2
  stops : .stop ∈ fs → .stop ∈ es

/-- What the server sees of a step. -/
def srvEvs (n : LogNetSt) : LogNetEv → List LogSrvEv
  | .at _ _ => []
  | .deliver i => match n.chan i with | [] => [] | w :: _ => [.arrive (some w)]
  | .serve => [.go]
  | .setLevels l => [.setLevels l]
  | .stop => [.stop]

theorem net_server {L fmt lt N a flt levels es fs os n} (h : NetAt L fmt lt N a flt levels es fs os n) (e : LogNetEv) (f : LogSrvEv) (hi : ∀ i, inProc i [e] = [])
    (hf : arrivedOf [f] = []) (hs : f = .stop → e = .stop) :
    NetAt L fmt lt N a flt levels (es ++ [e]) (fs ++ [f]) (os ++ (n.serverStep lt f).2) (n.serverStep lt f).1 where
  addr := h.addr
  snd i := by rw [inProc_append, hi, List.append_nil]; exact h.snd i
  sent i := by
    rw [inProc_append, hi, List.append_nil, arrivals_append]
    simp only [LogNetSt.serverStep, arrivals_server, List.append_nil]; exact h.sent i
  srv := by
    rw [logsrv_run_snoc, h.srv, ofServer_append]
    simp only [LogNetSt.serverStep, ofServer_server]
  got := by
    rw [arrivedOf_append, arrivals_append, hf, List.append_nil]
    simp only [LogNetSt.serverStep, arrivals_server, List.append_nil]; exact h.got
  stops := by
    intro hm
    simp only [List.mem_append, List.mem_singleton] at hm ⊢
    rcases hm with hm | hm
    · exact .inl (h.stops hm)
    · exact .inr (hs hm.symm).symm

theorem net_step {L fmt lt N a flt levels es fs os n} (h : NetAt L fmt lt N a flt levels es fs os n) (e : LogNetEv) :
    NetAt L fmt lt N a flt levels (es ++ [e]) (fs ++ srvEvs n e) (os ++ (n.step L fmt lt e).2) (n.step L fmt lt e).1 := by
  cases e with
  | serve => exact net_server h _ _ (fun _ => rfl) rfl (by simp)
  | setLevels l => exact net_server h _ _ (fun _ => rfl) rfl (by simp)
  | stop => exact net_server h _ _ (fun _ => rfl) rfl (by simp)
  | «at» i e =>
    simp only [LogNetSt.step, srvEvs, List.append_nil]
    have hin : ∀ j, inProc j [LogNetEv.at i e] = if j = i then [e] else [] := by
      intro j
      by_cases hj : j = i
      · simp [inProc, hj]
      · simp [inProc, hj, Ne.symm hj]
    constructor
    · exact h.addr
    · intro j
      rw [inProc_append, hin]
      by_cases hj : j = i
      · subst hj; simp only [if_true]; rw [sender_run_snoc, h.snd]
      · simp only [if_neg hj, List.append_nil]; exact h.snd j
    · intro j
      rw [inProc_append, hin, arrivals_append, arrivals_sender, List.append_nil]
      by_cases hj : j = i
      · subst hj; simp only [if_true]; rw [sender_run_snoc, wiresTo_append, h.sent, ← h.snd, h.addr, List.append_assoc]
      · simp only [if_neg hj, List.append_nil]; exact h.sent j
    · rw [ofServer_append, ofServer_sender, List.append_nil]; exact h.srv
    · rw [arrivals_append, arrivals_sender, List.append_nil]; exact h.got
    · intro hm; exact List.mem_append_left _ (h.stops hm)
  | deliver i =>
    have hin : ∀ j, inProc j [LogNetEv.deliver i] = [] := fun _ => rfl
    cases hc : n.chan i with
    | nil =>
      simp only [LogNetSt.step, srvEvs, hc, List.append_nil]
      exact ⟨h.addr, fun j => by rw [inProc_append, hin, List.append_nil]; exact h.snd j, fun j => by rw [inProc_append, hin, List.append_nil]; exact h.sent j,
        h.srv, h.got, fun hm => List.mem_append_left _ (h.stops hm)⟩
    | cons w r =>
      simp only [LogNetSt.step, srvEvs, hc, LogNetSt.serverStep, LogSrvSt.step, List.map_nil]
      have ha : arrivals [LogNetOut.arrived i w] = [(i, w)] := rfl
      constructor
      · exact h.addr
      · intro j; rw [inProc_append, hin, List.append_nil]; exact h.snd j
      · intro j
        rw [inProc_append, hin, List.append_nil, arrivals_append, ha, fromProc_append, h.sent]
        by_cases hj : j = i
        · subst hj; simp [fromProc, hc]
        · simp [fromProc, hj, Ne.symm hj]
      · rw [logsrv_run_snoc, h.srv, ofServer_append]; rfl
      · rw [arrivedOf_append, arrivals_append, ha, h.got, List.map_append]; rfl
      · intro hm
        simp only [List.mem_append, List.mem_singleton, reduceCtorEq, or_false] at hm
        exact List.mem_append_left _ (h.stops hm)

theorem net_run (L fmt lt N a flt levels) (es : List LogNetEv) :
    ∃ fs, NetAt L fmt lt N a flt levels es fs ((LogNetSt.init N a flt levels).run L fmt lt es).2 ((LogNetSt.init N a flt levels).run L fmt lt es).1 := by
  induction es using snoc_induction with
  | h0 => exact ⟨[], rfl, fun _ => rfl, fun _ => rfl, rfl, rfl, by simp⟩
  | hs es e ih =>
    obtain ⟨fs, h⟩ := ih
    rw [net_run_snoc]
    exact ⟨_, net_step h e⟩

theorem net_serves {L fmt lt N a flt levels es fs os n} (h : NetAt L fmt lt N a flt levels es fs os n) (k : Nat) :
    NetAt L fmt lt N a flt levels (es ++ List.replicate k .serve) (fs ++ List.replicate k .go) (os ++ (n.run L fmt lt (List.replicate k .serve)).2)
      (n.run L fmt lt (List.replicate k .serve)).1 := by
  induction k with
  | zero => simpa [LogNetSt.run] using h
  | succ k ih =>
    rw [List.replicate_succ', List.replicate_succ', net_run_snoc, ← List.append_assoc, ← List.append_assoc, ← List.append_assoc]
    exact net_step ih .serve

/-! ## A sender -/

/-- The record the thread of a sender holds. -/
def pcRec : SendPc → List Fields
  | .got r | .checked r | .sending r _ _ => [r]
  | _ => []

/-- What is known of a sender after any history. -/
structure SenderAny (L : Lib) (fmt : Val → Val → Except Exc Val) (ns : List LogNames) (as : List Bytes) (given : List Fields) (os : List SenderOut) (s : SenderSt) : Prop where
  names : s.names ∈ ns
  flow : (sentOf os ++ pcRec s.pc ++ s.queue.filterMap id).Sublist given
  making : ∀ r k w, s.pc = .sending r k w → ∃ M ∈ ns, messageFor L fmt M r = .ok w
  made : ∀ a r w, .sent a r w ∈ os → a ∈ as ∧ ∃ M ∈ ns, messageFor L fmt M r = .ok w
  addrs : ∀ k a, s.addrs.get? k = some a → a ∈ as

/-- The addresses a sender was connected to. -/
def connectedTo (es : List SenderEv) : List Bytes := es.filterMap fun e => match e with | .connectOpen a => a | _ => none

theorem connectedTo_append (a b : List SenderEv) : connectedTo (a ++ b) = connectedTo a ++ connectedTo b := List.filterMap_append

theorem sender_any_mono {L fmt ns ns' as as' given given' os s} (h : SenderAny L fmt ns as given os s) (hn : ∀ M ∈ ns, M ∈ ns') (ha : ∀ a ∈ as, a ∈ as')
    (hg : given.Sublist given') : SenderAny L fmt ns' as' given' os s where
  names := hn _ h.names
  flow := h.flow.trans hg
  making r k w hp := let ⟨M, hM, hm⟩ := h.making r k w hp; ⟨M, hn M hM, hm⟩
  made a r w ho := let ⟨h1, M, hM, hm⟩ := h.made a r w ho; ⟨ha a h1, M, hn M hM, hm⟩
  addrs k a hk := ha a (h.addrs k a hk)

theorem sender_any_step {L fmt ns as given os s} (h : SenderAny L fmt ns as given os s) (e : SenderEv) (hn : ∀ N, e = .rename N → N ∈ ns) (ha : ∀ a, e = .connectOpen (some a) → a ∈ as) :
    SenderAny L fmt ns as (given ++ handledOf [e]) (os ++ (s.step L fmt e).2) (s.step L fmt e).1 := by
  obtain ⟨h1, h2, h3, h4, h5⟩ := h
  have quiet : ∀ o, (∀ a r w, o ≠ SenderOut.sent a r w) → sentOf (os ++ [o]) = sentOf os ∧
      ∀ a r w, .sent a r w ∈ os ++ [o] → a ∈ as ∧ ∃ M ∈ ns, messageFor L fmt M r = .ok w := by
    intro o ho
    refine ⟨?_, ?_⟩
    · rw [sentOf_append]
      cases o with
      | sent a r w => exact absurd rfl (ho a r w)
      | _ => simp [sentOf]
    · intro a r w hm
      simp only [List.mem_append, List.mem_singleton] at hm
      rcases hm with hm | hm
      · exact h4 a r w hm
      · exact absurd hm.symm (ho a r w)
  cases e with
  | build => exact ⟨h1, by simpa [handledOf, SenderSt.step] using h2, h3, by simpa [SenderSt.step] using h4, h5⟩
  | handle r =>
    simp only [SenderSt.step]
    split
    · refine ⟨h1, ?_, h3, by simpa using h4, h5⟩
      rw [List.append_nil, List.filterMap_append, ← List.append_assoc]
      exact List.Sublist.append h2 (List.Sublist.refl _)
    · obtain ⟨q1, q2⟩ := quiet (.raised .attributeError) (by simp)
      refine ⟨h1, ?_, h3, q2, h5⟩
      rw [q1]; exact h2.trans (List.sublist_append_left _ _)
  | rename N => exact ⟨hn N rfl, by simpa [handledOf, SenderSt.step] using h2, h3, by simpa [SenderSt.step] using h4, h5⟩
  | connectClose =>
    simp only [SenderSt.step]
    split <;> exact ⟨h1, by simpa [handledOf] using h2, h3, by simpa using h4, h5⟩
  | closeSwap =>
    simp only [SenderSt.step]
    split <;> exact ⟨h1, by simpa [handledOf] using h2, h3, by simpa using h4, h5⟩
  | closePut =>
    simp only [SenderSt.step]
    split
    · exact ⟨h1, by simpa [handledOf, List.filterMap_append] using h2, h3, by simpa using h4, h5⟩
    · obtain ⟨q1, q2⟩ := quiet (.raised .attributeError) (by simp)
      exact ⟨h1, by rw [q1]; simpa [handledOf] using h2, h3, q2, h5⟩
  | connectOpen a =>
    cases a with
    | none =>
      obtain ⟨q1, q2⟩ := quiet (.raised .zmqError) (by simp)
      exact ⟨h1, by simp only [SenderSt.step]; rw [q1]; simpa [handledOf] using h2, h3, q2, h5⟩
    | some a =>
      refine ⟨h1, by simpa [handledOf, SenderSt.step] using h2, h3, by simpa [SenderSt.step] using h4, ?_⟩
      intro k b hk
      simp only [SenderSt.step] at hk
      rw [Dict.get?_set] at hk
      split at hk
      · cases hk; exact ha a rfl
      · exact h5 k b hk
  | go =>
    have hg : handledOf [SenderEv.go] = [] := rfl
    rw [hg, List.append_nil]
    have same : SenderAny L fmt ns as given (os ++ []) s := by rw [List.append_nil]; exact ⟨h1, h2, h3, h4, h5⟩
    simp only [SenderSt.step, SenderSt.go]
    split
    · exact same
    cases hp : s.pc with
    | idle =>
      rw [hp] at h2
      simp only
      cases hq : s.queue with
      | nil => exact same
      | cons x q =>
        rw [hq] at h2
        cases x with
        | none =>
          obtain ⟨q1, q2⟩ := quiet .ended (by simp)
          exact ⟨h1, by rw [q1]; simpa [pcRec] using h2, by simp, q2, h5⟩
        | some r => exact ⟨h1, by simpa [pcRec] using h2, by simp, by simpa using h4, h5⟩
    | got r =>
      rw [hp] at h2
      simp only
      split
      · obtain ⟨q1, q2⟩ := quiet (.dropped r) (by simp)
        refine ⟨h1, ?_, by simp, q2, h5⟩
        rw [q1]
        refine List.Sublist.trans ?_ h2
        exact List.Sublist.append (by simp [pcRec]) (List.Sublist.refl _)
      · exact ⟨h1, by simpa [pcRec] using h2, by simp, by simpa using h4, h5⟩
    | checked r =>
      rw [hp] at h2
      have die : ∀ e, SenderAny L fmt ns as given (os ++ [.crashed r e]) { s with pc := .crashed } := by
        intro e
        obtain ⟨q1, q2⟩ := quiet (.crashed r e) (by simp)
        refine ⟨h1, ?_, by simp, q2, h5⟩
        rw [q1]
        refine List.Sublist.trans ?_ h2
        exact List.Sublist.append (by simp [pcRec]) (List.Sublist.refl _)
      simp only
      cases hf : forwardFields fmt s.names r with
      | error e => exact die e
      | ok d =>
        simp only
        split
        · exact die _
        · rename_i k hk
          cases hw : plainDumps L jsonDepth (Fields.val d) with
          | error e => exact die e
          | ok w =>
            refine ⟨h1, by simpa [pcRec] using h2, ?_, by simpa using h4, h5⟩
            intro r' k' w' hh
            simp only [SendPc.sending.injEq] at hh
            obtain ⟨rfl, rfl, rfl⟩ := hh
            exact ⟨s.names, h1, by simp only [messageFor, hf, hw]⟩
    | sending r k w =>
      rw [hp] at h2
      simp only
      split
      · obtain ⟨q1, q2⟩ := quiet (.crashed r .zmqError) (by simp)
        refine ⟨h1, ?_, by simp, q2, h5⟩
        rw [q1]
        refine List.Sublist.trans ?_ h2
        exact List.Sublist.append (by simp [pcRec]) (List.Sublist.refl _)
      · split
        · rename_i a hk
          refine ⟨h1, ?_, by simp, ?_, h5⟩
          · rw [sentOf_append]
            simpa [pcRec, sentOf] using h2
          · intro b r' w' hm
            simp only [List.mem_append, List.mem_singleton] at hm
            rcases hm with hm | hm
            · exact h4 b r' w' hm
            · cases hm
              exact ⟨h5 k _ hk, h3 r k w hp⟩
        · exact same
    | finished => exact same
    | crashed => exact same

theorem namesOf_append (N : LogNames) (a b : List SenderEv) : namesOf N (a ++ b) = namesOf N a ++ (namesOf N b).tail := by
  simp [namesOf, List.filterMap_append]

theorem sender_any (L : Lib) (fmt) (s : SenderSt) (hq : s.queue = []) (hp : s.pc = .idle) (es : List SenderEv) :
    SenderAny L fmt (namesOf s.names es) (s.addrs.map (·.2) ++ connectedTo es) (handledOf es) (s.run L fmt es).2 (s.run L fmt es).1 := by
  induction es using snoc_induction with
  | h0 =>
    refine ⟨by simp [namesOf, SenderSt.run], by simp [SenderSt.run, hq, hp, pcRec, sentOf], by simp [SenderSt.run, hp], by simp [SenderSt.run], ?_⟩
    intro k a hk
    exact List.mem_append_left _ (List.mem_map.mpr ⟨(k, a), Dict.get?_some_mem hk, rfl⟩)
  | hs es e ih =>
    rw [sender_run_snoc, handledOf_append]
    refine sender_any_step (sender_any_mono ih ?_ ?_ (List.Sublist.refl _)) e ?_ ?_
    · intro M hM; rw [namesOf_append]; exact List.mem_append_left _ hM
    · intro a ha
      rw [connectedTo_append, ← List.append_assoc]; exact List.mem_append_left _ ha
    · rintro N rfl; rw [namesOf_append]; exact List.mem_append_right _ (by simp [namesOf])
    · rintro a rfl; rw [connectedTo_append]; exact List.mem_append_right _ (List.mem_append_right _ (by simp [connectedTo]))

/-- The records sent to an address. -/
def sentToAddr (a : Bytes) (os : List SenderOut) : List Fields := os.filterMap fun o => match o with | .sent b r _ => if b = a then some r else none | _ => none

theorem sentToAddr_sublist (a : Bytes) (os : List SenderOut) : (sentToAddr a os).Sublist (sentOf os) := by
  induction os with
  | nil => exact .slnil
  | cons o os ih =>
    cases o with
    | sent b r w =>
      simp only [sentToAddr, sentOf, List.filterMap_cons] at ih ⊢
      split
      · rename_i h
        split at h
        · cases h
        · exact ih.cons _
      · rename_i h
        split at h
        · cases h; exact ih.cons_cons _
        · cases h
    | _ => simpa [sentToAddr, sentOf] using ih

theorem zip_wiresTo {R : Fields → Wire → Prop} (a : Bytes) : ∀ (os : List SenderOut), (∀ b r w, .sent b r w ∈ os → R r w) → Zip R (sentToAddr a os) (wiresTo a os)
  | [], _ => .nil
  | o :: os, h => by
    have ih := zip_wiresTo a os fun b r w hm => h b r w (by simp [hm])
    cases o with
    | sent b r w =>
      by_cases hb : b = a
      · subst hb
        simpa [sentToAddr, wiresTo] using Zip.cons (h b r w (by simp)) ih
      · simpa [sentToAddr, wiresTo, hb] using ih
    | _ => simpa [sentToAddr, wiresTo] using ih

theorem sentToAddr_calm {L : Lib} {fmt} {N : LogNames} {a : Bytes} {es : List SenderEv} (hc : Calm es) :
    sentToAddr a ((SenderSt.init N a).run L fmt es).2 = sentOf ((SenderSt.init N a).run L fmt es).2 := by
  have h := (C56_order L fmt N a es hc).2
  revert h
  generalize ((SenderSt.init N a).run L fmt es).2 = os
  generalize namesOf N es = ns
  intro h
  induction os with
  | nil => rfl
  | cons o os ih =>
    have ih := ih fun o ho => h o (by simp [ho])
    rcases h o (by simp) with ⟨r, w, M, hM, rfl, hm⟩ | ⟨r, e, M, hM, rfl, hm⟩
    · simpa [sentToAddr, sentOf] using ih
    · simpa [sentToAddr, sentOf] using ih

theorem zip_sub {α β : Type} {R S : α → β → Prop} {x : List α} {y : List β} (h : Zip R x y) (H : ∀ r ∈ x, ∀ w, R r w → S r w) : Zip S x y := by
  induction h with
  | nil => exact .nil
  | cons h _ ih => exact .cons (H _ (by simp) _ h) (ih fun r hr => H r (by simp [hr]))

theorem zip_right {α β : Type} {R : α → β → Prop} {x : List α} {y : List β} (h : Zip R x y) : ∀ w ∈ y, ∃ r ∈ x, R r w := by
  induction h with
  | nil => simp
  | @cons r w rs ws h _ ih =>
    intro w' hw'
    simp only [List.mem_cons] at hw'
    rcases hw' with rfl | hw'
    · exact ⟨r, by simp, h⟩
    · obtain ⟨r', h1, h2⟩ := ih w' hw'
      exact ⟨r', by simp [h1], h2⟩

theorem loads_list {L : Lib} {n : Nat} (H : ∀ v w, plainDumps L n v = .ok w → ∃ v', plainLoads w = .ok v') :
    ∀ {l : List Val} {ws}, mapE (plainDumps L n) l = .ok ws → ∃ vs, plainLoadsL ws = .ok vs
  | [], ws, h => by cases h; exact ⟨[], rfl⟩
  | v :: l, ws, h => by
    simp only [mapE] at h
    cases h1 : plainDumps L n v with
    | error e => rw [h1] at h; cases h
    | ok w =>
      rw [h1] at h
      cases h2 : mapE (plainDumps L n) l with
      | error e => rw [h2] at h; cases h
      | ok ws' =>
        rw [h2] at h; cases h
        obtain ⟨v', hv⟩ := H v w h1
        obtain ⟨vs, hvs⟩ := loads_list H h2
        exact ⟨v' :: vs, by simp [plainLoadsL, hv, hvs]⟩

theorem loads_map {L : Lib} {n : Nat} (H : ∀ v w, plainDumps L n v = .ok w → ∃ v', plainLoads w = .ok v') :
    ∀ {d : List (Val × Val)} {m}, mapE (fun kv : Val × Val => match jkey L kv.1 with
          | .error e => .error e
          | .ok k =>
            match plainDumps L n kv.2 with
            | .error e => .error e
            | .ok w => .ok (Wire.str k, w)) d = .ok m → ∃ vs, plainLoadsM m = .ok vs
  | [], m, h => by cases h; exact ⟨[], rfl⟩
  | (k, v) :: d, m, h => by
    simp only [mapE] at h
    cases h0 : jkey L k with
    | error e => rw [h0] at h; cases h
    | ok s =>
      rw [h0] at h
      simp only at h
      cases h1 : plainDumps L n v with
      | error e => rw [h1] at h; cases h
      | ok w =>
        rw [h1] at h
        simp only at h
        split at h
        · cases h
        · rename_i ms h2
          cases h
          obtain ⟨v', hv⟩ := H v w h1
          obtain ⟨vs, hvs⟩ := loads_map H h2
          exact ⟨(.str s, v') :: vs, by simp [plainLoadsM, hv, hvs]⟩

/-- What JSON writes, JSON reads. -/
theorem dumps_loads (L : Lib) : ∀ (n : Nat) (v : Val) (w : Wire), plainDumps L n v = .ok w → ∃ v', plainLoads w = .ok v'
  | 0, v, w, h => by cases h
  | n + 1, v, w, h => by
    simp only [plainDumps] at h
    split at h
    · cases h; exact ⟨_, rfl⟩
    · cases h; exact ⟨_, rfl⟩
    · cases h; exact ⟨_, rfl⟩
    · cases h; exact ⟨_, rfl⟩
    · cases h; exact ⟨_, rfl⟩
    · split at h
      · rename_i ws hws; cases h
        obtain ⟨vs, hvs⟩ := loads_list (dumps_loads L n) hws
        exact ⟨.list vs, by simp [plainLoads, hvs]⟩
      · cases h
    · split at h
      · rename_i ws hws; cases h
        obtain ⟨vs, hvs⟩ := loads_list (dumps_loads L n) hws
        exact ⟨.list vs, by simp [plainLoads, hvs]⟩
      · cases h
    · split at h
      · rename_i m hm; cases h
        obtain ⟨vs, hvs⟩ := loads_map (dumps_loads L n) hm
        exact ⟨.dict (dictOf vs), by simp [plainLoads, hvs]⟩
      · cases h
    · split at h
      · cases h; exact ⟨_, rfl⟩
      · cases h
    · cases h

theorem dumps_fields {L : Lib} {n : Nat} : ∀ {d : Fields} {m}, mapE (fun kv : Val × Val => match jkey L kv.1 with
          | .error e => .error e
          | .ok k =>
            match plainDumps L n kv.2 with
            | .error e => .error e
            | .ok w => .ok (Wire.str k, w)) (d.map fun kv => (Val.str kv.1, kv.2)) = .ok m →
      ∃ d' : Fields, d'.map (·.1) = d.map (·.1) ∧ plainLoadsM m = .ok (d'.map fun kv => (Val.str kv.1, kv.2)) ∧
        ∀ k v, d.get? k = some v → ∃ w v', plainDumps L n v = .ok w ∧ plainLoads w = .ok v' ∧ d'.get? k = some v'
  | [], m, h => by cases h; exact ⟨[], rfl, rfl, fun k v h => by cases h⟩
  | (k, v) :: d, m, h => by
    simp only [List.map_cons, mapE, jkey, Val.core] at h
    cases h1 : plainDumps L n v with
    | error e => rw [h1] at h; cases h
    | ok w =>
      rw [h1] at h
      simp only at h
      split at h
      · cases h
      · rename_i ms h2
        cases h
        obtain ⟨v', hv⟩ := dumps_loads L n v w h1
        obtain ⟨d', g1, g2, g3⟩ := dumps_fields (d := d) h2
        refine ⟨(k, v') :: d', by simp [g1], by simp [plainLoadsM, hv, g2], fun k2 v2 hk => ?_⟩
        rw [Dict.get?] at hk
        rw [Dict.get?]
        by_cases hkk : k = k2
        · rw [if_pos hkk] at hk ⊢
          cases hk
          exact ⟨w, v', h1, hv, rfl⟩
        · rw [if_neg hkk] at hk ⊢
          exact g3 k2 v2 hk

/-- Whatever a record holds: if it can be sent, it can be read, and it has the level it had. -/
theorem sent_good {L : Lib} {fmt} {N : LogNames} {r : Fields} {w : Wire} (hl : Levelled r) (h : messageFor L fmt N r = .ok w) (lt) : GoodMessage lt (some w) := by
  unfold messageFor at h
  cases h0 : forwardFields fmt N r with
  | error e => rw [h0] at h; cases h
  | ok d0 =>
    rw [h0] at h
    simp only at h
    obtain ⟨hw, ho, _⟩ := forward_spec hl.1 h0
    have hlv := ho "levelno" (by decide) (by decide) (by decide) (by decide) (by decide)
    rw [show jsonDepth = 998 + 1 + 1 from rfl] at h
    generalize 998 = depth at h
    rw [plainDumps] at h
    simp only [Fields.val, Val.core] at h
    split at h
    · rename_i m hm
      cases h
      obtain ⟨d', g1, g2, g3⟩ := dumps_fields hm
      have hw' : d'.WF := by simpa only [Dict.WF, g1] using hw
      obtain ⟨d, u1, u2⟩ := update_get d' defaultRecord hw'
      refine ⟨d, ?_, ?_⟩
      · have hd : plainLoads (.map m) = .ok (.dict (d'.map fun kv => (Val.str kv.1, kv.2))) := by
          simp only [plainLoads, g2]
          rw [dictOf_eq (fields_pairwise hw')]
        simp only [readRecord, hd]
        exact u1
      · intro n
        have key : ∀ v, r.get? "levelno" = some v → (∀ k w', plainDumps L (k + 1) v = .ok w' → plainLoads w' = .ok v) → d.get? "levelno" = some v := by
          intro v hv hj
          rw [← hlv] at hv
          obtain ⟨w1, v1, q1, q2, q3⟩ := g3 _ _ hv
          rw [hj _ _ q1] at q2; cases q2
          rw [u2, q3]
        rcases hl.2 with ⟨i, hi⟩ | ⟨b, hi⟩ | ⟨f, hi⟩
        · have := key _ hi (by intro k w' hw'; simp only [plainDumps, Val.core] at hw'; cases hw'; rfl)
          exact ⟨_, by simp only [levelBelow, this]; rfl⟩
        · have := key _ hi (by intro k w' hw'; simp only [plainDumps, Val.core] at hw'; cases hw'; rfl)
          exact ⟨_, by simp only [levelBelow, this]; rfl⟩
        · have := key _ hi (by intro k w' hw'; simp only [plainDumps, Val.core] at hw'; cases hw'; rfl)
          exact ⟨_, by simp only [levelBelow, this]; rfl⟩
    · cases h

/-- What a message is to the record it was made for. -/
def Carries (lt : Nat → Int → Bool) (fmt : Val → Val → Except Exc Val) (ns : List LogNames) (r : Fields) (w : Wire) : Prop :=
  GoodMessage lt (some w) ∧ (PlainRecord fmt r → ∃ d, readRecord (some w) = .ok d ∧ ∃ M ∈ ns, Arrived fmt M r d)

theorem sender_zip {L : Lib} {lt fmt} {N : LogNames} {a : Bytes} {es : List SenderEv} (hg : ∀ r ∈ handledOf es, Levelled r) :
    Zip (Carries lt fmt (namesOf N es)) (sentToAddr a ((SenderSt.init N a).run L fmt es).2) (wiresTo a ((SenderSt.init N a).run L fmt es).2) ∧
    (sentToAddr a ((SenderSt.init N a).run L fmt es).2).Sublist (handledOf es) := by
  have h := sender_any L fmt (SenderSt.init N a) rfl rfl es
  have hsub : (sentOf ((SenderSt.init N a).run L fmt es).2).Sublist (handledOf es) := by
    refine List.Sublist.trans ?_ h.flow
    rw [List.append_assoc]; exact List.sublist_append_left _ _
  refine ⟨zip_wiresTo a _ fun b r w hm => ?_, (sentToAddr_sublist a _).trans hsub⟩
  obtain ⟨_, M, hM, hw⟩ := h.made b r w hm
  have hr : r ∈ handledOf es := hsub.subset (by rw [sentOf, List.mem_filterMap]; exact ⟨_, hm, rfl⟩)
  refine ⟨sent_good (hg r hr) hw lt, fun hp => ?_⟩
  obtain ⟨w', d, h1, h2, h3⟩ := C75_record L fmt M r hp
  rw [hw] at h1; cases h1
  exact ⟨d, h2, M, hM, h3⟩

theorem mem_fromProc {α : Type} {i : Nat} {w : α} {l : List (Nat × α)} (h : (i, w) ∈ l) : w ∈ fromProc i l := by
  simp only [fromProc, List.mem_filterMap]
  exact ⟨(i, w), h, by simp⟩

/-- Everything that arrived can be read. -/
theorem net_good {L fmt lt N a flt levels es fs os n} (h : NetAt L fmt lt N a flt levels es fs os n)
    (hg : ∀ i, ∀ r ∈ handledOf (inProc i es), Levelled r) : ∀ m ∈ arrivedOf fs, GoodMessage lt m := by
  intro m hm
  rw [h.got] at hm
  simp only [List.mem_map, Prod.exists] at hm
  obtain ⟨i, w, hw, rfl⟩ := hm
  have hz := (sender_zip (L := L) (lt := lt) (fmt := fmt) (N := N i) (a := a) (hg i)).1
  obtain ⟨r, _, hr⟩ := zip_right hz w (by rw [h.sent]; simp [mem_fromProc hw])
  exact hr.1

/-- Records read are those of the messages, so they can be told apart like these. -/
theorem tell_apart : ∀ (A : List (Nat × Wire)) (ds : List Fields), (A.map fun x => readRecord (some x.2)) = ds.map .ok →
    ∃ B : List (Nat × Fields), B.map (·.2) = ds ∧ B.map (·.1) = A.map (·.1) ∧
      ∀ i, (fromProc i A).map (fun w => readRecord (some w)) = (fromProc i B).map .ok
  | [], ds, h => ⟨[], by simpa using h.symm, rfl, fun _ => rfl⟩
  | (j, w) :: A, [], h => by simp at h
  | (j, w) :: A, d :: ds, h => by
    simp only [List.map_cons, List.cons.injEq] at h
    obtain ⟨B, h1, h2, h3⟩ := tell_apart A ds h.2
    refine ⟨(j, d) :: B, by simp [h1], by simp [h2], fun i => ?_⟩
    have := h3 i
    by_cases hj : j = i
    · simp only [fromProc, List.filterMap_cons, hj, if_true, List.map_cons] at this ⊢
      rw [h.1, this]
    · simp only [fromProc, List.filterMap_cons, hj, if_false] at this ⊢
      exact this

theorem fromProc_take {α : Type} (i k : Nat) (l : List (Nat × α)) : fromProc i (l.take k) <+: fromProc i l := by
  refine ⟨fromProc i (l.drop k), ?_⟩
  rw [← fromProc_append, List.take_append_drop]

theorem zip_all {α β γ : Type} {R : α → β → Prop} {S : α → γ → Prop} {f : β → Except Exc γ} (H : ∀ a b c, R a b → f b = .ok c → S a c)
    {as : List α} {bs : List β} {cs : List γ} (h : Zip R as bs) (hm : bs.map f = cs.map .ok) : Zip S as cs := by
  induction h generalizing cs with
  | nil =>
    have : cs = [] := by simpa using hm.symm
    subst this; exact .nil
  | cons h _ ih =>
    cases cs with
    | nil => simp at hm
    | cons c cs =>
      simp only [List.map_cons, List.cons.injEq] at hm
      exact .cons (H _ _ _ h hm.1) (ih hm.2)

theorem carries_arrived {lt fmt ns} (r : Fields) (w : Wire) (d : Fields) (h : Carries lt fmt ns r w) (hd : readRecord (some w) = .ok d) :
    PlainRecord fmt r → ∃ M ∈ ns, Arrived fmt M r d := by
  intro hp
  obtain ⟨d', h1, h2⟩ := h.2 hp
  rw [hd] at h1; cases h1
  exact h2

/-! ## Going on -/

theorem take_prefix_eq {α : Type} {x y : List α} (h : x <+: y) (k : Nat) : ∃ k', x.take k = y.take k' := by
  obtain ⟨t, rfl⟩ := h
  refine ⟨min k x.length, ?_⟩
  rw [List.take_append_of_le_length (Nat.min_le_right _ _)]
  by_cases hk : k ≤ x.length
  · rw [Nat.min_eq_left hk]
  · rw [Nat.min_eq_right (by omega), List.take_length, List.take_of_length_le (by omega)]

theorem prefix_antisymm {α : Type} {x y z : List α} (h1 : x <+: y) (h2 : y <+: z) (h : x = z) : y = z := by
  subst h
  exact h2.eq_of_length (Nat.le_antisymm h2.length_le h1.length_le)

theorem inProc_gos (i j k : Nat) : inProc j (List.replicate k (LogNetEv.at i .go)) = if j = i then List.replicate k .go else [] := by
  induction k with
  | zero => simp [inProc]
  | succ k ih =>
    rw [List.replicate_succ]
    have : inProc j (LogNetEv.at i .go :: List.replicate k (LogNetEv.at i .go)) = inProc j [LogNetEv.at i .go] ++ inProc j (List.replicate k (LogNetEv.at i .go)) := inProc_append _ [_] _
    rw [this, ih]
    by_cases hj : j = i
    · subst hj; simp [inProc, List.replicate_succ]
    · simp [inProc, hj, Ne.symm hj]

/-- The senders go on until all their records are sent. -/
theorem net_sent {L : Lib} {fmt} {N : Nat → LogNames} {a : Bytes} {es : List LogNetEv} : ∀ l : List Nat, (∀ i ∈ l, Calm (inProc i es)) →
    (∀ i ∈ l, ∀ r ∈ handledOf (inProc i es), Forwardable L fmt r) →
    ∃ es', (∀ e ∈ es', ∃ i, e = .at i .go) ∧ (∀ i, handledOf (inProc i es') = []) ∧ (∀ i, Calm (inProc i es) → Calm (inProc i (es ++ es'))) ∧
      (∀ i, namesOf (N i) (inProc i (es ++ es')) = namesOf (N i) (inProc i es)) ∧
      ∀ i ∈ l, sentOf ((SenderSt.init (N i) a).run L fmt (inProc i (es ++ es'))).2 = handledOf (inProc i es)
  | [], _, _ => ⟨[], by simp, fun _ => rfl, by simp, by simp, by simp⟩
  | i :: l, hc, hg => by
    obtain ⟨es', h1, h2, h3, h4, h5⟩ := net_sent (N := N) (a := a) l (fun i hi => hc i (by simp [hi])) fun i hi => hg i (by simp [hi])
    have hh : ∀ j, handledOf (inProc j (es ++ es')) = handledOf (inProc j es) := by
      intro j; rw [inProc_append, handledOf_append, h2, List.append_nil]
    obtain ⟨k, hk⟩ := C56_all L fmt (N i) a (inProc i (es ++ es')) (h3 i (hc i (by simp))) (by rw [hh]; exact hg i (by simp))
    rw [hh] at hk
    have hgo : ∀ j, handledOf (inProc j (List.replicate k (LogNetEv.at i .go))) = [] := by
      intro j
      rw [inProc_gos]
      split
      · clear hk; induction k with
        | zero => rfl
        | succ k ih => rw [List.replicate_succ]; exact ih
      · rfl
    have hnm : ∀ j M, SenderEv.rename M ∉ inProc j (List.replicate k (LogNetEv.at i .go)) := by
      intro j M hm
      rw [inProc_gos] at hm
      split at hm
      · simp [List.mem_replicate] at hm
      · simp at hm
    have hcalm : ∀ j, Calm (inProc j es) → Calm (inProc j (es ++ (es' ++ List.replicate k (LogNetEv.at i .go)))) := by
      intro j hj
      rw [← List.append_assoc, inProc_append, inProc_gos]
      intro e he
      rw [List.mem_append] at he
      rcases he with he | he
      · exact h3 j hj e he
      · split at he
        · rw [List.mem_replicate] at he; rw [he.2]; trivial
        · simp at he
    refine ⟨es' ++ List.replicate k (LogNetEv.at i .go), ?_, ?_, hcalm, ?_, ?_⟩
    · intro e he
      rw [List.mem_append] at he
      rcases he with he | he
      · exact h1 e he
      · rw [List.mem_replicate] at he; exact ⟨i, he.2⟩
    · intro j; rw [inProc_append, handledOf_append, h2, hgo]; rfl
    · intro j
      rw [← h4, ← List.append_assoc, inProc_append j (es ++ es')]
      simp only [namesOf, List.filterMap_append]
      congr 1
      conv => rhs; rw [← List.append_nil (List.filterMap _ (inProc j (es ++ es')))]
      congr 1
      rw [List.filterMap_eq_nil_iff]
      intro e he
      cases e <;> first | rfl | exact absurd he (hnm j _)
    · intro j hj
      by_cases hji : j = i
      · subst hji
        rw [← List.append_assoc, inProc_append, inProc_gos, if_pos rfl]; exact hk
      · have hj : j ∈ l := by simpa [hji] using hj
        rw [← List.append_assoc, inProc_append, inProc_gos, if_neg hji, List.append_nil]; exact h5 j hj

theorem net_deliver_other {L fmt lt} (n : LogNetSt) (i j : Nat) (h : n.chan j = []) : (n.step L fmt lt (.deliver i)).1.chan j = [] := by
  simp only [LogNetSt.step]
  split
  · exact h
  · rename_i w r hi
    simp only [LogNetSt.serverStep]
    split
    · rename_i hji; subst hji; rw [h] at hi; cases hi
    · exact h

theorem net_deliver_all {L fmt lt} : ∀ (k : Nat) (n : LogNetSt) (i : Nat), (n.chan i).length ≤ k →
    (n.run L fmt lt (List.replicate k (.deliver i))).1.chan i = [] ∧
    ∀ j, n.chan j = [] → (n.run L fmt lt (List.replicate k (.deliver i))).1.chan j = []
  | 0, n, i, h => ⟨List.eq_nil_of_length_eq_zero (l := n.chan i) (by omega), fun _ h => h⟩
  | k + 1, n, i, h => by
    rw [List.replicate_succ]
    have hl : ((n.step L fmt lt (.deliver i)).1.chan i).length ≤ k := by
      simp only [LogNetSt.step]
      split
      · rename_i hc; rw [hc]; simp
      · rename_i w r hc; simp only [LogNetSt.serverStep, if_true]; rw [hc] at h; simpa using h
    obtain ⟨h1, h2⟩ := net_deliver_all (L := L) (fmt := fmt) (lt := lt) k _ i hl
    exact ⟨h1, fun j hj => h2 j (net_deliver_other n i j hj)⟩

/-- Messages arrive until none is on its way. -/
theorem net_delivered {L fmt lt} (n : LogNetSt) : ∀ l : List Nat,
    ∃ es, (∀ e ∈ es, ∃ i, e = .deliver i) ∧ (∀ i ∈ l, (n.run L fmt lt es).1.chan i = []) ∧ ∀ i, n.chan i = [] → (n.run L fmt lt es).1.chan i = []
  | [] => ⟨[], by simp, by simp, fun _ h => h⟩
  | i :: l => by
    obtain ⟨es, h1, h2, h3⟩ := net_delivered n l
    obtain ⟨h4, h5⟩ := net_deliver_all (L := L) (fmt := fmt) (lt := lt) _ (n.run L fmt lt es).1 i (Nat.le_refl _)
    refine ⟨es ++ List.replicate ((n.run L fmt lt es).1.chan i).length (.deliver i), ?_, ?_, ?_⟩
    · intro e he
      rw [List.mem_append] at he
      rcases he with he | he
      · exact h1 e he
      · rw [List.mem_replicate] at he; exact ⟨i, he.2⟩
    · intro j hj
      rw [net_run_append]
      rcases List.mem_cons.mp hj with rfl | hj
      · exact h4
      · exact h5 j (h2 j hj)
    · intro j hj
      rw [net_run_append]
      exact h5 j (h3 j hj)

/-- The processes a history mentions. -/
def procsOf (es : List LogNetEv) : List Nat := es.filterMap fun e => match e with | .at i _ => some i | _ => none

theorem inProc_none {es : List LogNetEv} {i : Nat} (h : i ∉ procsOf es) : inProc i es = [] := by
  rw [inProc, List.filterMap_eq_nil_iff]
  intro e he
  cases e with
  | «at» j e =>
    have hj : j ≠ i := by
      rintro rfl
      exact h (by rw [procsOf, List.mem_filterMap]; exact ⟨_, he, rfl⟩)
    simp [hj]
  | _ => rfl

theorem inProc_quiet {es : List LogNetEv} (h : ∀ i e, .at i e ∉ es) (i : Nat) : inProc i es = [] := by
  rw [inProc, List.filterMap_eq_nil_iff]
  intro e he
  cases e with
  | «at» j e => exact absurd he (h j e)
  | _ => rfl

end Verif
