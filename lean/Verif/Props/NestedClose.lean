import Verif.Props.ServerNames
/-!
# C105: closing a server while it carries out requests

A `close` request can be read while other requests are running, when their code waits for something (C08). What becomes of these?
-/
namespace Verif

/-- How the processing of messages ended, oldest first: caller, number, and whether by an exception that nobody in the server caught. -/
def endings (os : List Out) : List (Bytes × Int × Bool) :=
  os.filterMap fun o => match o with
    | .done c k x => some (c, k, x.isSome)
    | _ => none

/-- How many pieces of user code end in a list of events. -/
def countRets (es : List Ev) : Nat := es.countP fun e => match e with | .ret _ _ => true | _ => false

/-- the end of a request when the socket is closed -/
theorem finish_after {H : Heap} {s : Srv} {c k rt r} (h : s.sockOpen = false) :
    endings (s.finish H c k rt false r).2 = [(c, k, decide (0 ≤ k))] ∧ (s.finish H c k rt false r).1.dead = (s.dead || (decide (0 ≤ k) && s.stack.isEmpty)) ∧
    (s.finish H c k rt false r).1.stack = s.stack ∧ (s.finish H c k rt false r).1.sockOpen = false := by
  have hn := respond_noAccept H s c k rt r
  obtain ⟨t, ht⟩ := respond_state H s c k rt r
  unfold Srv.finish
  generalize s.respond H c k rt r = y at hn ht ⊢
  obtain ⟨s1, o, x⟩ := y
  simp only at hn ht
  subst ht
  rcases hn with ⟨_, h2, _⟩ | ⟨h1, rfl, h3⟩ | ⟨h1, h2, h3⟩
  · rw [h] at h2; simp at h2
  · cases x with
    | none => simp at h3
    | some e => simp [endings, h1, h]
  · have hk : decide (0 ≤ k) = false := by simpa using h1
    subst h2
    rcases h3 with rfl | ⟨e, rfl⟩ <;> simp [endings, hk, h]

/-- nothing but the ends of running code matters once the socket is closed -/
theorem step_after_close {s : Srv} (h : s.sockOpen = false) (hc : s.closed = true) (e : Ev) :
    (s.step e).1.sockOpen = false ∧ (s.step e).1.closed = true ∧
    ((countRets [e] = 0 ∨ s.stack = []) → endings (s.step e).2 = [] ∧ (s.step e).1.stack = s.stack ∧ (s.step e).1.dead = s.dead) ∧
    (∀ f st, countRets [e] = 1 → s.stack = f :: st → endings (s.step e).2 = [(f.caller, f.reqId, decide (0 ≤ f.reqId))] ∧ (s.step e).1.stack = st ∧
      (s.step e).1.dead = (s.dead || (decide (0 ≤ f.reqId) && st.isEmpty))) := by
  cases e with
  | recv H parts => simp [Srv.step, hc, h, countRets, endings]
  | publish H n v => simp only [Srv.step]; split <;> simp [hc, h, countRets, endings]
  | mkProxy H v kw => simp [Srv.step, hc, h, countRets, endings]
  | ret H r =>
    cases hs : s.stack with
    | nil => simp [Srv.step, hs, hc, h, endings, countRets]
    | cons f st =>
      have := finish_after (H := H) (s := { s with stack := st }) (c := f.caller) (k := f.reqId) (rt := f.returnType) (r := f.task.result H r) h
      have hcl : (s.step (.ret H r)).1.closed = true := by
        simp only [Srv.step, hs]
        rw [(finish_reg ..).2]; exact hc
      simp only [Srv.step, hs] at hcl ⊢
      refine ⟨this.2.2.2, hcl, ?_, ?_⟩
      · intro h0; simp [countRets] at h0
      · intro f' st' _ he
        simp only [List.cons.injEq] at he
        obtain ⟨rfl, rfl⟩ := he
        exact ⟨this.1, this.2.2.1, this.2.1⟩

theorem endings_append (a b : List Out) : endings (a ++ b) = endings a ++ endings b := List.filterMap_append

theorem countRets_cons (e : Ev) (es : List Ev) : countRets (e :: es) = countRets [e] + countRets es := by
  simp only [countRets, List.countP_cons, List.countP_nil]
  omega

theorem countRets_one (e : Ev) : countRets [e] = 0 ∨ countRets [e] = 1 := by cases e <;> simp [countRets]

theorem run_after_close : ∀ (es : List Ev) {s : Srv}, s.sockOpen = false → s.closed = true →
    endings (s.run es).2 = (s.stack.take (countRets es)).map (fun f => (f.caller, f.reqId, decide (0 ≤ f.reqId))) ∧
    (s.run es).1.stack = s.stack.drop (countRets es) ∧
    (s.run es).1.dead = (s.dead || (decide (s.stack.length ≤ countRets es) && (s.stack.getLast?.any fun f => decide (0 ≤ f.reqId))))
  | [], s, _, _ => by
    cases hs : s.stack with
    | nil => simp [Srv.run, countRets, endings, hs]
    | cons f st => simp [Srv.run, countRets, endings, hs]
  | e :: es, s, h, hc => by
    obtain ⟨h1, h2, h3, h4⟩ := step_after_close h hc e
    obtain ⟨i1, i2, i3⟩ := run_after_close es h1 h2
    have hr1 : (s.run (e :: es)).1 = ((s.step e).1.run es).1 := rfl
    have hr2 : (s.run (e :: es)).2 = (s.step e).2 ++ ((s.step e).1.run es).2 := rfl
    rw [hr1, hr2, endings_append, i1, i2, i3, countRets_cons]
    rcases countRets_one e with h0 | h0
    · obtain ⟨h5, h6, h7⟩ := h3 (.inl h0)
      rw [h5, h6, h7, h0, Nat.zero_add]
      exact ⟨rfl, rfl, rfl⟩
    · cases hs : s.stack with
      | nil =>
        obtain ⟨h5, h6, h7⟩ := h3 (.inr hs)
        rw [h5, h6, h7, hs]
        simp
      | cons f st =>
        obtain ⟨h5, h6, h7⟩ := h4 f st h0 hs
        rw [h5, h6, h7, h0]
        refine ⟨by simp [Nat.add_comm 1], by simp [Nat.add_comm 1], ?_⟩
        cases st with
        | nil => simp
        | cons g st =>
          simp only [List.isEmpty_cons, Bool.and_false, Bool.or_false, List.length_cons, List.getLast?_cons_cons]
          congr 2
          simp only [decide_eq_decide]
          omega

theorem finish_fine {H : Heap} {s : Srv} {c k rt r} (h : .done c k none ∈ (s.finish H c k rt true r).2) :
    (s.finish H c k rt true r).1.dead = s.dead ∧ (s.finish H c k rt true r).1.stack = s.stack ∧ (s.finish H c k rt true r).1.closed = s.closed := by
  have hn := respond_noAccept H s c k rt r
  obtain ⟨t, ht⟩ := respond_state H s c k rt r
  unfold Srv.finish at *
  generalize s.respond H c k rt r = y at hn ht h ⊢
  obtain ⟨s1, o, x⟩ := y
  simp only at hn ht h
  subst ht
  cases x with
  | none => exact ⟨rfl, rfl, rfl⟩
  | some e =>
    exfalso
    rcases hn with ⟨_, _, _, _, rfl⟩ | ⟨_, rfl, _⟩ | ⟨_, h', _⟩
    · simp at h
    · simp at h
    · simp at h'

/-- a handled close request leaves the requests that were running as they were, and marks the server closed -/
theorem close_keeps {s : Srv} {H : Heap} {parts c m ser opts} (hr : readOne H parts = .ok (c, m)) (ha : m.action = "close")
    (hst : serOf m.serType = some ser) (hu : H.utf8 c ≠ none) (hp : m.payload H s ser = .ok opts) (hd : .done c m.reqId none ∈ (s.step (.recv H parts)).2) :
    (s.step (.recv H parts)).1.closed = true ∧ (s.step (.recv H parts)).1.stack = s.stack ∧ (s.step (.recv H parts)).1.dead = false := by
  simp only [Srv.step] at hd ⊢
  split at hd
  · simp at hd
  · rename_i h1
    rw [if_neg h1]
    have hdead : s.dead = false := by
      simp only [Bool.or_eq_true, not_or, Bool.not_eq_true] at h1
      exact h1.2
    split at hd
    · simp at hd
    · rename_i h2
      rw [if_neg h2]
      simp only [hr] at hd ⊢
      rcases process_split H s c m with ⟨e, _, h5 | h5 | ⟨ser', h5, h6⟩⟩ | ⟨ser', cs, opts', _, _, _, ⟨s1, o, r, h3, h⟩ | ⟨s1, o, task, h3, h⟩⟩
      · rw [hst] at h5; simp at h5
      · exact absurd h5 hu
      · rw [hst] at h5; simp only [Option.some.injEq] at h5; subst h5
        rw [hp] at h6; simp at h6
      · rw [h, decide_eq_true ha] at hd ⊢
        rw [ha] at h3
        simp only [Srv.action, Started.finished.injEq] at h3
        obtain ⟨b, h6, h4⟩ := closeAction_state { s with clients := s.clients.set c m.serType } c
        rw [h3.2.1] at h4
        rw [h3.1] at h6
        simp only [List.mem_cons, reduceCtorEq, false_or, List.mem_append] at hd
        have := finish_fine (hd.resolve_left fun hm => by
          obtain ⟨_, _, h5⟩ := h4 _ hm
          simp at h5)
        simp only
        rw [this.1, this.2.1, this.2.2, h6]
        exact ⟨rfl, rfl, hdead⟩
      · rw [ha] at h3; simp [Srv.action] at h3

/-- **C105** (what happens instead). When a readable `close` request has been handled while the requests `s.stack` were running (innermost first), then whatever happens afterwards:
nothing is sent; the requests end as their code ends, each that wanted a reply with an exception nobody in the server catches, each that wanted none without; and
`run_forever` ends by an exception exactly if all of them have ended and the first one wanted a reply. -/
theorem C105_abandoned {s : Srv} {H : Heap} {parts c m ser opts} (hr : readOne H parts = .ok (c, m)) (ha : m.action = "close")
    (hst : serOf m.serType = some ser) (hu : H.utf8 c ≠ none) (hp : m.payload H s ser = .ok opts) (hd : .done c m.reqId none ∈ (s.step (.recv H parts)).2) (es : List Ev) :
    let s1 := (s.step (.recv H parts)).1
    (∀ to ser w, .send to ser w ∉ (s1.run es).2) ∧
    endings (s1.run es).2 = (s.stack.take (countRets es)).map (fun f => (f.caller, f.reqId, decide (0 ≤ f.reqId))) ∧
    ((s1.run es).1.dead = true ↔ s.stack.length ≤ countRets es ∧ ∃ f, s.stack.getLast? = some f ∧ 0 ≤ f.reqId) := by
  obtain ⟨h1, h2, h3⟩ := close_keeps hr ha hst hu hp hd
  obtain ⟨h4, h5, h6⟩ := run_after_close es (close_handled hr ha hd) h1
  rw [h2] at h4 h6
  refine ⟨fun to ser w hm => ?_, h4, ?_⟩
  · have := (C16_nothing_more hr ha hd es).1 _ hm
    simp [Out.silent] at this
  · rw [h6, h3]
    cases s.stack.getLast? <;> simp

/-- **C105_partial** If no request is running, or the first of those running wanted no reply, no exception ends `run_forever`: it returns. Missing: requests running that
wanted a reply (`C105_fails`). -/
theorem C105_partial {s : Srv} {H : Heap} {parts c m ser opts} (hr : readOne H parts = .ok (c, m)) (ha : m.action = "close")
    (hst : serOf m.serType = some ser) (hu : H.utf8 c ≠ none) (hp : m.payload H s ser = .ok opts) (hd : .done c m.reqId none ∈ (s.step (.recv H parts)).2)
    (hq : ∀ f, s.stack.getLast? = some f → f.reqId < 0) (es : List Ev) :
    ((s.step (.recv H parts)).1.run es).1.dead = false ∧ ((s.step (.recv H parts)).1.run es).1.closed = true := by
  have h := (C105_abandoned hr ha hst hu hp hd es).2.2
  constructor
  · cases hx : ((s.step (.recv H parts)).1.run es).1.dead with
    | false => rfl
    | true =>
      obtain ⟨_, f, h1, h2⟩ := h.1 hx
      have := hq f h1
      omega
  · have h1 := (close_keeps hr ha hst hu hp hd).1
    have : ∀ (es : List Ev) {s : Srv}, s.sockOpen = false → s.closed = true → (s.run es).1.closed = true := by
      intro es
      induction es with
      | nil => intro s _ h; exact h
      | cons e es ih => intro s h h'; exact ih (step_after_close h h' e).1 (step_after_close h h' e).2.1
    exact this es (close_handled hr ha hd) h1

namespace Ex

/-- A's call (number 1) runs, inside it B's (number 2, no reply); then B closes the server. -/
def exNested : List Ev := [msg 65 [1] 13 20 30 [3], msg 66 [0, 2] 13 20 31 [3]]

/-- C105: the hypotheses can be met with two requests running. -/
example : readOne heap [[66], [3], [12], [20], [31], []] = .ok ([66], ⟨3, "close", "auto", "json", []⟩) ∧ serOf "json" = some .json ∧ heap.utf8 [66] ≠ none ∧
    (match Msg.payload heap (srv.run exNested).1 ⟨3, "close", "auto", "json", []⟩ .json with | .ok .none => true | _ => false) = true ∧
    (match ((srv.run exNested).1.step (msg 66 [3] 12 20 31 [])).2.getLast? with | some (.done [66] 3 none) => true | _ => false) = true ∧
    ((srv.run exNested).1.stack.map fun f => (f.caller, f.reqId)) = [([66], -2), ([65], 1)] := by
  refine ⟨rfl, rfl, by decide, by decide +kernel, by decide +kernel, by decide +kernel⟩

/-- **C105_fails** B closes the server while the call of A runs and later returns 7: A is sent a disconnect message and never a reply, the call ends with
`ZMQError`, and that exception ends `run_forever`. -/
theorem C105_fails : let es := [msg 65 [1] 13 20 30 [3], msg 66 [3] 12 20 31 [], .ret heap (.ok (.int 7))]
    (srv.run es).1.dead = true ∧ countSends [65] (srv.run es).2 = 1 ∧ countDisconnects [65] .msgpack (srv.run es).2 = 1 ∧
    (match (srv.run es).2.getLast? with | some (.done [65] 1 (some .zmqError)) => true | _ => false) = true := by decide +kernel

end Ex

namespace Ex

/-! ## The theorems on these cases -/

example := C105_abandoned (s := (srv.run exNested).1) (H := heap) (parts := [[66], [3], [12], [20], [31], []]) (c := [66]) (m := ⟨3, "close", "auto", "json", []⟩)
  (ser := .json) (opts := .none) rfl rfl rfl (by decide) (by rfl) (List.mem_of_getLast? (by rfl)) [.ret heap (.ok (.int 7))]
/-- A's call did not ask for a reply. -/
def exNestedOff : List Ev := [msg 65 [0, 1] 13 20 31 [3]]
example := C105_partial (s := (srv.run exNestedOff).1) (H := heap) (parts := [[66], [3], [12], [20], [31], []]) (c := [66]) (m := ⟨3, "close", "auto", "json", []⟩)
  (ser := .json) (opts := .none) rfl rfl rfl (by decide) (by rfl) (List.mem_of_getLast? (by rfl))
  (by intro f hf; have : (srv.run exNestedOff).1.stack.getLast?.map (·.reqId) = some (-1) := by decide +kernel
      rw [hf] at this; simp only [Option.map_some, Option.some.injEq] at this; omega) [.ret heap (.ok (.int 7))]

end Ex

end Verif
