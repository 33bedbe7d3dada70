import Verif.Proof.LogHandler
/-!
# C53, C54 and C73: the sorting log handler
-/
namespace Verif

/-! ## C53: nothing is lost, nothing is written twice -/

/-- **C53** In every history the records treated so far and the records pending are, together, exactly the records logged, each as often as it
was logged. -/
theorem C53_conserved (E : LogEnv) (now : Int) (hs) (es : List HandlerEv) :
    (((HandlerSt.init now hs).run E es).2.map LogOut.record ++ ((HandlerSt.init now hs).run E es).1.pending).Perm (emittedOf es) := by
  rw [List.perm_iff_count]
  intro a
  have := handler_run_count E (HandlerSt.init now hs) es a
  rw [List.count_append, this]
  simp [HandlerSt.init, HandlerSt.pending]

/-- **C53** No record is written twice. -/
theorem C53_at_most_once (E : LogEnv) (now : Int) (hs) (es : List HandlerEv) (h : (emittedOf es).Nodup) :
    (((HandlerSt.init now hs).run E es).2.map LogOut.record).Nodup :=
  ((C53_conserved E now hs es).nodup_iff.2 h).sublist (List.sublist_append_left _ _)

/-- **C53** Only records that cannot be formatted are not written when their turn comes. -/
theorem C53_written (E : LogEnv) (s : HandlerSt) (es : List HandlerEv) :
    ∀ o ∈ (s.run E es).2, Writable E o.record → ∃ line, o = .wrote o.record line := by
  have hput : ∀ (s : HandlerSt) r o, o ∈ (s.put E r).2 → Writable E o.record → ∃ line, o = .wrote o.record line := by
    intro s r o ho hw
    unfold HandlerSt.put at ho
    split at ho
    · simp only [List.mem_singleton] at ho; subst ho; exact ⟨_, rfl⟩
    · rename_i hs e hf
      simp only [List.mem_singleton] at ho; subst ho
      exfalso
      obtain ⟨⟨m, hm⟩, hl⟩ := hw
      simp only [LogOut.record] at hm hl
      unfold LogEnv.format at hf
      simp only [hm] at hf
      split at hf
      · rename_i hc
        obtain ⟨h1, h2⟩ := hl hc
        have : r.level / 10 * 10 = 0 ∨ r.level / 10 * 10 = 10 ∨ r.level / 10 * 10 = 20 ∨ r.level / 10 * 10 = 30 ∨
            r.level / 10 * 10 = 40 ∨ r.level / 10 * 10 = 50 := by omega
        rcases this with h | h | h | h | h | h <;> rw [h] at hf <;> simp [levelColors, Dict.get?] at hf
      · simp at hf
  have hstep : ∀ (s : HandlerSt) e o, o ∈ (s.step E e).2 → Writable E o.record → ∃ line, o = .wrote o.record line := by
    intro s e o ho hw
    cases e with
    | tick d => simp [HandlerSt.step] at ho
    | emit r => simp [HandlerSt.step] at ho
    | flush => simp [HandlerSt.step] at ho
    | poll =>
      simp only [HandlerSt.step, HandlerSt.pollStep] at ho
      split at ho
      · simp at ho
      · split at ho <;> simp at ho
      · simp at ho
      · exact hput _ _ _ ho hw
      · split at ho <;> simp at ho
    | write i =>
      simp only [HandlerSt.step] at ho
      split at ho
      · simp at ho
      · simp at ho
      · exact hput _ _ _ ho hw
  induction es generalizing s with
  | nil => simp [HandlerSt.run]
  | cons e es ih =>
    intro o ho hw
    simp only [HandlerSt.run, List.mem_append] at ho
    rcases ho with ho | ho
    · exact hstep s e o ho hw
    · exact ih _ o ho hw

/-- the writes of one call of `flush_records` -/
theorem flush_writes (E : LogEnv) : ∀ (l : List LogRec) (s : HandlerSt) (pre post : List (List LogRec)), s.flushes = pre ++ l :: post →
    ((s.run E (List.replicate (l.length + 1) (.write pre.length))).2.map LogOut.record) = l ∧
    (s.run E (List.replicate (l.length + 1) (.write pre.length))).1.flushes = pre ++ post ∧
    (s.run E (List.replicate (l.length + 1) (.write pre.length))).1.records = s.records ∧
    (s.run E (List.replicate (l.length + 1) (.write pre.length))).1.poll = s.poll
  | [], s, pre, post, h => by
    have : s.flushes[pre.length]? = some [] := by rw [h]; simp
    have h2 : s.flushes.eraseIdx pre.length = pre ++ post := by
      rw [h, List.eraseIdx_append_of_length_le (Nat.le_refl _)]; simp
    simp [HandlerSt.run, HandlerSt.step, this, h2]
  | r :: rs, s, pre, post, h => by
    have h1 : s.flushes[pre.length]? = some (r :: rs) := by rw [h]; simp
    obtain ⟨hs, o, h2, h3⟩ := put_spec E { s with flushes := s.flushes.set pre.length rs } r
    have h4 : s.step E (.write pre.length) = ({ s with flushes := s.flushes.set pre.length rs, headers := hs }, [o]) := by
      simp only [HandlerSt.step, h1, h2]
    have h5 : s.flushes.set pre.length rs = pre ++ rs :: post := by
      rw [h, List.set_append_right _ _ (Nat.le_refl _)]; simp
    have ih := flush_writes E rs { s with flushes := s.flushes.set pre.length rs, headers := hs } pre post h5
    simp only [List.length_cons, List.replicate_succ (n := rs.length + 1), HandlerSt.run, h4] at ih ⊢
    simpa [h3] using ih

/-- **C53** In every situation a call of `flush_records` that is not interrupted treats exactly the records in the list, once, in order of creation,
and leaves nothing in the list; what the polling thread or another call holds is untouched. -/
theorem C53_flush (E : LogEnv) (s : HandlerSt) :
    let es := .flush :: List.replicate (s.records.length + 1) (.write s.flushes.length)
    (s.run E es).2.map LogOut.record = s.records ∧ (s.run E es).1.records = [] ∧ (s.run E es).1.flushes = s.flushes ∧
      (s.run E es).1.poll = s.poll := by
  have h := flush_writes E s.records (s.step E .flush).1 s.flushes [] rfl
  simp only [List.append_nil] at h
  simp only [HandlerSt.run]
  exact ⟨by simpa [HandlerSt.step] using h.1, h.2.2.1, h.2.1, h.2.2.2⟩

/-- **C53, partial.** After a final flush, if the polling thread and other calls of `flush_records` hold nothing, every record logged has been treated
exactly once. Missing: records the polling thread holds at that time are lost if the process ends (`C53_fails`). -/
theorem C53_final_partial (E : LogEnv) (now : Int) (hs) (es : List HandlerEv) (s : HandlerSt) (os)
    (hr : (HandlerSt.init now hs).run E es = (s, os)) (hp : ∀ l, s.poll = .writing l → l = []) (hf : s.flushes.flatten = []) :
    let fs := es ++ .flush :: List.replicate (s.records.length + 1) (.write s.flushes.length)
    (((HandlerSt.init now hs).run E fs).2.map LogOut.record).Perm (emittedOf es) := by
  intro fs
  have h1 := C53_conserved E now hs es
  rw [hr] at h1
  have h2 := C53_flush E s
  simp only [fs, handler_run_append, hr, List.map_append]
  rw [h2.1]
  have h3 : s.pending = s.records := by
    unfold HandlerSt.pending
    rw [hf, List.append_nil]
    split
    · rename_i l hl; rw [hp l hl, List.append_nil]
    · rw [List.append_nil]
  rw [h3] at h1
  exact h1

/-- Events of the polling thread and the clock. -/
def PollOnly (es : List HandlerEv) : Prop := ∀ e ∈ es, e = .poll ∨ ∃ d, e = .tick d

theorem poll_drain (E : LogEnv) : ∀ (l : List LogRec) (s : HandlerSt), s.poll = .writing l →
    ∃ es, PollOnly es ∧ (s.run E es).1.poll = .top ∧ (s.run E es).1.records = s.records
  | [], s, h => ⟨[.poll], by simp [PollOnly], by simp [HandlerSt.run, HandlerSt.step, HandlerSt.pollStep, h], by
      simp [HandlerSt.run, HandlerSt.step, HandlerSt.pollStep, h]⟩
  | r :: rs, s, h => by
    obtain ⟨hs, o, h1, _⟩ := put_spec E { s with poll := .writing rs } r
    obtain ⟨es, h2, h3, h4⟩ := poll_drain E rs { s with poll := .writing rs, headers := hs } rfl
    refine ⟨.poll :: es, ?_, ?_, ?_⟩
    · intro e he
      rcases List.mem_cons.1 he with he | he
      · exact Or.inl he
      · exact h2 e he
    · simpa [HandlerSt.run, HandlerSt.step, HandlerSt.pollStep, h, h1] using h3
    · simpa [HandlerSt.run, HandlerSt.step, HandlerSt.pollStep, h, h1] using h4

theorem pollOnly_append {a b : List HandlerEv} (ha : PollOnly a) (hb : PollOnly b) : PollOnly (a ++ b) := by
  intro e he
  rcases List.mem_append.1 he with h | h
  · exact ha e h
  · exact hb e h

theorem poll_to_top (E : LogEnv) (s : HandlerSt) : ∃ es, PollOnly es ∧ (s.run E es).1.poll = .top := by
  cases hp : s.poll with
  | top => exact ⟨[], by simp [PollOnly], hp⟩
  | writing l => obtain ⟨es, h1, h2, _⟩ := poll_drain E l s hp; exact ⟨es, h1, h2⟩
  | asleep t =>
    refine ⟨[.tick (t - s.now).toNat, .poll], by intro e he; simp at he; rcases he with rfl | rfl <;> simp, ?_⟩
    have : t ≤ s.now + ↑(t - s.now).toNat := by omega
    simp only [HandlerSt.run, HandlerSt.step, HandlerSt.pollStep, hp, if_pos this]
  | limited L =>
    by_cases hl : (s.records.takeWhile fun r => decide (r.created < L)).length > 0
    · obtain ⟨es, h1, h2, _⟩ := poll_drain E _ { s with records := (s.records.dropWhile fun r => decide (r.created < L)), poll := .writing (s.records.takeWhile fun r => decide (r.created < L)) } rfl
      refine ⟨.poll :: es, ?_, ?_⟩
      · intro e he
        rcases List.mem_cons.1 he with he | he
        · exact Or.inl he
        · exact h1 e he
      · simp only [HandlerSt.run, HandlerSt.step, HandlerSt.pollStep, hp, if_pos hl]
        exact h2
    · refine ⟨[.poll, .tick 200, .poll], by intro e he; simp at he; rcases he with rfl | rfl | rfl <;> simp, ?_⟩
      simp only [HandlerSt.run, HandlerSt.step, HandlerSt.pollStep, hp, if_neg hl]
      simp

theorem all_below : ∀ l : List LogRec, ∃ m : Int, ∀ r ∈ l, r.created < m
  | [] => ⟨0, by simp⟩
  | x :: l => by
    obtain ⟨m, hm⟩ := all_below l
    refine ⟨max m (x.created + 1), fun r hr => ?_⟩
    rcases List.mem_cons.1 hr with rfl | hr
    · omega
    · have := hm r hr; omega

theorem takeWhile_eq_self_of_all {p : LogRec → Bool} : ∀ {l : List LogRec}, (∀ r ∈ l, p r = true) → l.takeWhile p = l ∧ l.dropWhile p = []
  | [], _ => by simp
  | x :: l, h => by
    have h1 := takeWhile_eq_self_of_all (l := l) (p := p) (fun r hr => h r (by simp [hr]))
    have h2 := h x (by simp)
    simp [h2, h1]

/-- **C53** The polling thread alone can always empty the list: from every situation it reaches, with time, one where it holds nothing and nothing is left. -/
theorem C53_progress (E : LogEnv) (s : HandlerSt) :
    ∃ es, PollOnly es ∧ (s.run E es).1.poll = .top ∧ (s.run E es).1.records = [] := by
  obtain ⟨es, h1, h2⟩ := poll_to_top E s
  suffices H : ∀ s : HandlerSt, s.poll = .top → ∃ es, PollOnly es ∧ (s.run E es).1.poll = .top ∧ (s.run E es).1.records = [] by
    obtain ⟨fs, h3, h4, h5⟩ := H _ h2
    exact ⟨es ++ fs, pollOnly_append h1 h3, by rw [handler_run_append]; exact h4, by rw [handler_run_append]; exact h5⟩
  clear h1 h2 es s
  intro s hp
  by_cases hr : s.records = []
  · exact ⟨[], by simp [PollOnly], hp, hr⟩
  obtain ⟨m, hm⟩ := all_below s.records
  have hall := takeWhile_eq_self_of_all (l := s.records) (p := fun r => decide (r.created < s.now + ↑(m + s.delay - s.now).toNat - s.delay)) (by
    intro r hr'
    have := hm r hr'
    simp; omega)
  have hlen : s.records.length > 0 := by
    cases hrr : s.records with
    | nil => exact absurd hrr hr
    | cons a l => simp
  obtain ⟨es, h1, h2, h3⟩ := poll_drain E s.records
    { s with now := s.now + ↑(m + s.delay - s.now).toNat, records := [], poll := .writing s.records } rfl
  refine ⟨.tick (m + s.delay - s.now).toNat :: .poll :: .poll :: es, ?_, ?_, ?_⟩
  · intro e he
    simp only [List.mem_cons] at he
    rcases he with rfl | rfl | rfl | he
    · exact Or.inr ⟨_, rfl⟩
    · exact Or.inl rfl
    · exact Or.inl rfl
    · exact h1 e he
  · simp only [HandlerSt.run, HandlerSt.step, HandlerSt.pollStep, hp, hall, if_pos hlen]
    exact h2
  · simp only [HandlerSt.run, HandlerSt.step, HandlerSt.pollStep, hp, hall, if_pos hlen]
    exact h3

namespace Ex

def logEnv (colorama : Bool) : LogEnv :=
  { colorama, text := fun r => if r.uid = 13 then .error .typeError else .ok ("message " ++ toString r.uid), host := "here", process := "p", threads := [(1, "main")] }

def recA : LogRec := { uid := 1, created := 0, level := 20, thread := 1 }
def recB : LogRec := { uid := 2, created := 100, level := 30, thread := 255, processName := some "child" }
def recC : LogRec := { uid := 3, created := 100, level := 60, thread := 1 }

/-- **C53 fails.** The polling thread has taken a record when the process ends: the final flush writes nothing, the record is lost. -/
theorem C53_fails : ∃ es, emittedOf es = [recA] ∧ ((HandlerSt.init 0).run (logEnv false) (es ++ [.flush, .write 0])).2 = [] ∧
    ((HandlerSt.init 0).run (logEnv false) (es ++ [.flush, .write 0])).1.flushes = [] :=
  ⟨[.emit recA, .tick 201, .poll, .poll], rfl, by decide +kernel, by decide +kernel⟩

/-- **C53 fails.** With colours a record of level 60 or more is never written. -/
theorem C53_fails_level : ((HandlerSt.init 0).run (logEnv true) [.emit recC, .flush, .write 0, .write 0]).2 = [.failed recC .keyError] := by
  decide +kernel

/-- Two threads, polling and flush interleaved: each record is written once. -/
example : (((HandlerSt.init 0).run (logEnv false)
    [.emit recB, .emit recA, .tick 201, .poll, .poll, .flush, .poll, .write 0, .poll, .write 0, .poll]).2) =
    [.wrote recA "[here:p:main] message 1", .wrote recB "[here:child:thread-ff] message 2"] := by decide +kernel
example : Writable (logEnv true) recA ∧ ¬ Writable (logEnv true) recC := by
  refine ⟨⟨⟨_, rfl⟩, fun _ => by decide⟩, fun h => ?_⟩
  have := (h.2 rfl).2
  revert this; decide
/-- The hypotheses of `C53_final_partial` -/
def oneLeft : List HandlerEv := [.emit recA, .tick 201, .poll, .poll, .poll, .poll, .emit recB]
example : ((HandlerSt.init 0).run (logEnv false) oneLeft).1.poll = .top ∧ ((HandlerSt.init 0).run (logEnv false) oneLeft).1.flushes = [] ∧
    ((HandlerSt.init 0).run (logEnv false) oneLeft).1.records = [recB] ∧ emittedOf oneLeft = [recA, recB] := by decide +kernel

end Ex

/-! ## C54: order -/

/-- **C54** If nobody flushes and every record is logged at most the hold-back delay (200 ms) after its creation, the records are treated in
order of creation. -/
theorem C54_order {E : LogEnv} {now : Int} {hs} {es : List HandlerEv} (hf : .flush ∉ es) (ht : InTime 200 now es) :
    (((HandlerSt.init now hs).run E es).2.map LogOut.record).Pairwise fun a b => a.created ≤ b.created := by
  obtain ⟨lim, h⟩ := order_run E now hs es hf ht
  have := h.sorted
  unfold takenOut at this
  exact (List.pairwise_append.1 this).1

/-- **C54** … and those created at the same time in the order they were logged: the ones treated are the first of these that were logged. -/
theorem C54_stable {E : LogEnv} {now : Int} {hs} {es : List HandlerEv} (hf : .flush ∉ es) (ht : InTime 200 now es) (c : Int) :
    ((((HandlerSt.init now hs).run E es).2.map LogOut.record).filter fun r => r.created = c) <+: (emittedOf es).filter fun r => r.created = c := by
  obtain ⟨lim, h⟩ := order_run E now hs es hf ht
  rw [← h.same c]
  unfold takenOut
  simp only [List.filter_append, List.append_assoc]
  exact List.prefix_append _ _

theorem writtenOf_sublist (os : List LogOut) : (writtenOf os).Sublist (os.map LogOut.record) := by
  induction os with
  | nil => simp [writtenOf]
  | cons o os ih =>
    cases o with
    | wrote r l => exact ih.cons_cons r
    | failed r e => exact ih.cons r

/-- **C54** What appears on the stream is in order of creation. -/
theorem C54_stream {E : LogEnv} {now : Int} {hs} {es : List HandlerEv} (hf : .flush ∉ es) (ht : InTime 200 now es) :
    (writtenOf ((HandlerSt.init now hs).run E es).2).Pairwise fun a b => a.created ≤ b.created :=
  (C54_order hf ht).sublist (writtenOf_sublist _)

namespace Ex

/-- Three records arriving out of order, in time. -/
def shuffled : List HandlerEv := [.tick 150, .emit recC, .emit recB, .tick 40, .emit recA, .poll, .poll, .tick 300, .poll, .poll, .poll, .poll, .poll, .poll]

example : InTime 200 0 shuffled ∧ HandlerEv.flush ∉ shuffled := by
  refine ⟨?_, by decide +kernel⟩
  simp [InTime, shuffled, recA, recB, recC]
example : ((HandlerSt.init 0).run (logEnv false) shuffled).2.map LogOut.record = [recA, recC, recB] := by decide +kernel

/-- A record that comes too late is written too late. -/
theorem C54_late : ∃ es, .flush ∉ es ∧ ((HandlerSt.init 0).run (logEnv false) es).2.map LogOut.record = [recB, recA] :=
  ⟨[.tick 100, .emit recB, .tick 201, .poll, .poll, .poll, .emit recA, .poll, .poll, .poll, .poll], by decide +kernel, by decide +kernel⟩

/-- A flush while the polling thread writes breaks the order, even if all records are in time. -/
theorem C54_flush_breaks : ∃ es, InTime 200 0 es ∧ ((HandlerSt.init 0).run (logEnv false) es).2.map LogOut.record = [recB, recA] := by
  refine ⟨[.emit recA, .tick 150, .emit recB, .tick 60, .poll, .poll, .flush, .write 0, .poll], ?_, by decide +kernel⟩
  simp [InTime, recA, recB]

end Ex

/-! ## C73: headers -/

/-- The text every header contains. -/
def bracket (k : HeaderKey) : String := "[" ++ k.1 ++ ":" ++ k.2.1 ++ ":" ++ k.2.2 ++ "]"

/-- Headers made by this code: the bracket of the key, between a colour and a reset if there are colours. -/
def HeadersOk (E : LogEnv) (hs : Dict HeaderKey String) : Prop :=
  ∀ k h, hs.get? k = some h → if E.colorama then ∃ c ∈ threadColors, h = c ++ bracket k ++ ansi "0" else h = bracket k

/-- **C73** The name of the thread in a header: the one the record brings along, else the one given to the thread in this process, else `thread-` and its ident in hex. -/
theorem C73_thread_label (E : LogEnv) (r : LogRec) :
    (∀ n, r.threadName = some n → (E.headerKey r).2.2 = n) ∧
    (r.threadName = none → (∀ n, E.threads.get? r.thread = some n → (E.headerKey r).2.2 = n) ∧
      (E.threads.get? r.thread = none → (E.headerKey r).2.2 = String.ofList ("thread-".toList ++ Nat.toDigits 16 r.thread))) := by
  refine ⟨fun n h => by simp [LogEnv.headerKey, h], fun h => ⟨fun n hn => by simp [LogEnv.headerKey, LogEnv.threadName, h, hn], fun hn => ?_⟩⟩
  simp only [LogEnv.headerKey, LogEnv.threadName, h, hn, Option.getD_none]; rfl

theorem header_ok {E : LogEnv} {hs : Dict HeaderKey String} {r : LogRec} (h : HeadersOk E hs) :
    HeadersOk E (E.header hs r).1 ∧ (E.header hs r).1.get? (E.headerKey r) = some (E.header hs r).2 ∧
    ∀ k x, hs.get? k = some x → (E.header hs r).1.get? k = some x := by
  unfold LogEnv.header
  simp only
  split
  · rename_i x hx; exact ⟨h, hx, fun _ _ h => h⟩
  · rename_i hx
    refine ⟨?_, by simp, ?_⟩
    · intro k x hk
      rw [Dict.get?_set] at hk
      split at hk
      · rename_i hkk
        subst hkk
        simp only [Option.some.injEq] at hk
        subst hk
        split
        · rename_i hc
          refine ⟨_, ?_, rfl⟩
          have hl : threadColors.length = 18 := by decide
          have hlt : hs.length % threadColors.length < threadColors.length := Nat.mod_lt _ (by rw [hl]; omega)
          rw [List.getD_eq_getElem?_getD, List.getElem?_eq_getElem hlt, Option.getD_some]
          exact List.getElem_mem _
        · rfl
      · exact h k x hk
    · intro k x hk
      rw [Dict.get?_set]
      split
      · rename_i hkk; subst hkk; rw [hx] at hk; cases hk
      · exact hk

/-- The colour of a level, as escape sequences: levels below 20 dim, then white, yellow, red, red background. -/
def levelColour (level : Int) : String :=
  if level < 20 then "\x1b[2m\x1b[37m" else if level < 30 then "\x1b[1m\x1b[37m" else if level < 40 then "\x1b[1m\x1b[33m" else if level < 50 then "\x1b[1m\x1b[31m" else "\x1b[41m"

theorem level_colour {l : Int} {c : String} (h : levelColors.get? (l / 10 * 10) = some c) : 0 ≤ l ∧ l < 60 ∧ c = levelColour l := by
  have key : ∀ x : Int, levelColors.get? x = some c → (x = 0 ∨ x = 10 ∨ x = 20 ∨ x = 30 ∨ x = 40 ∨ x = 50) := by
    intro x hx
    have := Dict.get?_some_mem hx
    simp only [levelColors, List.mem_cons, Prod.mk.injEq, List.not_mem_nil, or_false] at this
    omega
  unfold levelColour
  rcases key _ h with hx | hx | hx | hx | hx | hx <;> rw [hx] at h
  · have h1 : 0 ≤ l ∧ l < 10 := by omega
    have : c = ansi "2" ++ ansi "37" := by simp [levelColors, Dict.get?] at h; exact h.symm
    rw [if_pos (by omega), this]
    exact ⟨by omega, by omega, by decide⟩
  · have h1 : 10 ≤ l ∧ l < 20 := by omega
    have : c = ansi "2" ++ ansi "37" := by simp [levelColors, Dict.get?] at h; exact h.symm
    rw [if_pos (by omega), this]
    exact ⟨by omega, by omega, by decide⟩
  · have h1 : 20 ≤ l ∧ l < 30 := by omega
    have : c = ansi "1" ++ ansi "37" := by simp [levelColors, Dict.get?] at h; exact h.symm
    rw [if_neg (by omega), if_pos (by omega), this]
    exact ⟨by omega, by omega, by decide⟩
  · have h1 : 30 ≤ l ∧ l < 40 := by omega
    have : c = ansi "1" ++ ansi "33" := by simp [levelColors, Dict.get?] at h; exact h.symm
    rw [if_neg (by omega), if_neg (by omega), if_pos (by omega), this]
    exact ⟨by omega, by omega, by decide⟩
  · have h1 : 40 ≤ l ∧ l < 50 := by omega
    have : c = ansi "1" ++ ansi "31" := by simp [levelColors, Dict.get?] at h; exact h.symm
    rw [if_neg (by omega), if_neg (by omega), if_neg (by omega), if_pos (by omega), this]
    exact ⟨by omega, by omega, by decide⟩
  · have h1 : 50 ≤ l ∧ l < 60 := by omega
    have : c = ansi "41" := by simp [levelColors, Dict.get?] at h; exact h.symm
    rw [if_neg (by omega), if_neg (by omega), if_neg (by omega), if_neg (by omega), this]
    exact ⟨by omega, by omega, by decide⟩

/-- What follows the header in the line of a record with text `t`. -/
def lineEnd (E : LogEnv) (r : LogRec) (t : String) : String := if E.colorama then " " ++ levelColour r.level ++ t ++ "\x1b[0m" else " " ++ t

theorem format_ok {E : LogEnv} {hs : Dict HeaderKey String} {r : LogRec} (h : HeadersOk E hs) :
    HeadersOk E (E.format hs r).1 ∧ (∀ k x, hs.get? k = some x → (E.format hs r).1.get? k = some x) ∧
    ∀ line, (E.format hs r).2 = .ok line →
      ∃ hd t, (E.format hs r).1.get? (E.headerKey r) = some hd ∧ E.text r = .ok t ∧ (E.colorama = true → 0 ≤ r.level ∧ r.level < 60) ∧ line = hd ++ lineEnd E r t := by
  obtain ⟨h1, h2, h3⟩ := header_ok (r := r) h
  unfold LogEnv.format
  simp only
  generalize E.header hs r = p at h1 h2 h3
  obtain ⟨hs', hd⟩ := p
  simp only at h1 h2 h3 ⊢
  split
  · exact ⟨h1, h3, by simp⟩
  · next t ht =>
    unfold lineEnd
    split
    · next hc =>
      split
      · exact ⟨h1, h3, by simp⟩
      · next c hcol =>
        refine ⟨h1, h3, fun line hl => ?_⟩
        obtain ⟨hl1, hl2, rfl⟩ := level_colour hcol
        simp only [Except.ok.injEq] at hl
        refine ⟨hd, t, h2, ht, fun _ => ⟨hl1, hl2⟩, ?_⟩
        rw [← hl]
        simp only [if_true, String.append_assoc]
        rfl
    · next hc =>
      refine ⟨h1, h3, fun line hl => ?_⟩
      simp only [Except.ok.injEq] at hl
      refine ⟨hd, t, h2, ht, fun h => absurd h hc, ?_⟩
      rw [← hl]
      simp only [if_false, String.append_assoc]

theorem headers_step {E : LogEnv} {s : HandlerSt} (e : HandlerEv) (h : HeadersOk E s.headers) :
    HeadersOk E (s.step E e).1.headers ∧ (∀ k x, s.headers.get? k = some x → (s.step E e).1.headers.get? k = some x) ∧
    ∀ r line, .wrote r line ∈ (s.step E e).2 →
      ∃ hd t, (s.step E e).1.headers.get? (E.headerKey r) = some hd ∧ E.text r = .ok t ∧ (E.colorama = true → 0 ≤ r.level ∧ r.level < 60) ∧ line = hd ++ lineEnd E r t := by
  have hput : ∀ (s : HandlerSt) r, HeadersOk E s.headers →
      HeadersOk E (s.put E r).1.headers ∧ (∀ k x, s.headers.get? k = some x → (s.put E r).1.headers.get? k = some x) ∧
      ∀ r' line, .wrote r' line ∈ (s.put E r).2 →
        ∃ hd t, (s.put E r).1.headers.get? (E.headerKey r') = some hd ∧ E.text r' = .ok t ∧ (E.colorama = true → 0 ≤ r'.level ∧ r'.level < 60) ∧ line = hd ++ lineEnd E r' t := by
    intro s r h
    obtain ⟨h1, h2, h3⟩ := format_ok (r := r) h
    unfold HandlerSt.put
    split
    · rename_i hs line hf
      rw [hf] at h1 h2 h3
      refine ⟨h1, h2, fun r' line' hm => ?_⟩
      simp only [List.mem_singleton, LogOut.wrote.injEq] at hm
      obtain ⟨rfl, rfl⟩ := hm
      exact h3 _ rfl
    · rename_i hs e hf
      rw [hf] at h1 h2 h3
      exact ⟨h1, h2, fun r' line' hm => by simp at hm⟩
  cases e with
  | tick d => exact ⟨h, fun _ _ h => h, by simp [HandlerSt.step]⟩
  | emit r => exact ⟨h, fun _ _ h => h, by simp [HandlerSt.step]⟩
  | flush => exact ⟨h, fun _ _ h => h, by simp [HandlerSt.step]⟩
  | poll =>
    simp only [HandlerSt.step, HandlerSt.pollStep]
    split
    · exact ⟨h, fun _ _ h => h, by simp⟩
    · split <;> exact ⟨h, fun _ _ h => h, by simp⟩
    · exact ⟨h, fun _ _ h => h, by simp⟩
    · rename_i r rs _; exact hput { s with poll := .writing rs } r h
    · split <;> exact ⟨h, fun _ _ h => h, by simp⟩
  | write i =>
    simp only [HandlerSt.step]
    split
    · exact ⟨h, fun _ _ h => h, by simp⟩
    · exact ⟨h, fun _ _ h => h, by simp⟩
    · rename_i r rs _; exact hput { s with flushes := s.flushes.set i rs } r h

theorem headers_run {E : LogEnv} {s : HandlerSt} (es : List HandlerEv) (h : HeadersOk E s.headers) :
    HeadersOk E (s.run E es).1.headers ∧ (∀ k x, s.headers.get? k = some x → (s.run E es).1.headers.get? k = some x) ∧
    ∀ r line, .wrote r line ∈ (s.run E es).2 →
      ∃ hd t, (s.run E es).1.headers.get? (E.headerKey r) = some hd ∧ E.text r = .ok t ∧ (E.colorama = true → 0 ≤ r.level ∧ r.level < 60) ∧ line = hd ++ lineEnd E r t := by
  induction es generalizing s with
  | nil => exact ⟨h, fun _ _ h => h, by simp [HandlerSt.run]⟩
  | cons e es ih =>
    obtain ⟨h1, h2, h3⟩ := headers_step e h
    obtain ⟨h4, h5, h6⟩ := ih h1
    simp only [HandlerSt.run]
    refine ⟨h4, fun k x hk => h5 k x (h2 k x hk), ?_⟩
    intro r line hm
    rcases List.mem_append.1 hm with hm | hm
    · obtain ⟨hd, rest, h7, h8⟩ := h3 r line hm
      exact ⟨hd, rest, h5 _ _ h7, h8⟩
    · exact h6 r line hm

/-- **C73** In every history all lines of one host, process and thread begin with the same header, which contains these three names (and is one colour
of the table, if there are colours); a line is this header, a space and the whole text of its record, in the colour of its level; nothing else. The names are those the handler finds in the record, or else its own: see `C73_fails`. -/
theorem C73_header (E : LogEnv) (now : Int) (es : List HandlerEv) (k : HeaderKey) :
    ∃ hd, (if E.colorama then ∃ c ∈ threadColors, hd = c ++ bracket k ++ ansi "0" else hd = bracket k) ∧
      ∀ r line, .wrote r line ∈ ((HandlerSt.init now).run E es).2 → E.headerKey r = k → ∃ t, E.text r = .ok t ∧ (E.colorama = true → 0 ≤ r.level ∧ r.level < 60) ∧ line = hd ++ lineEnd E r t := by
  have h0 : HeadersOk E (HandlerSt.init now).headers := by intro k h hk; simp [HandlerSt.init] at hk
  obtain ⟨h1, _, h3⟩ := headers_run es h0
  cases hk : ((HandlerSt.init now).run E es).1.headers.get? k with
  | some hd =>
    refine ⟨hd, h1 k hd hk, ?_⟩
    rintro r line hm rfl
    obtain ⟨hd', rest, h4, h5⟩ := h3 r line hm
    rw [hk] at h4; cases h4
    exact ⟨rest, h5⟩
  | none =>
    refine ⟨if E.colorama then threadColors.getD 0 "" ++ bracket k ++ ansi "0" else bracket k, ?_, ?_⟩
    · split
      · rename_i hc; exact ⟨_, by decide, rfl⟩
      · rfl
    · rintro r line hm rfl
      obtain ⟨hd', rest, h4, h5⟩ := h3 r line hm
      rw [hk] at h4; cases h4

namespace Ex

example : ((HandlerSt.init 0).run (logEnv true) [.emit recA, .flush, .write 0]).2 =
    [.wrote recA "\x1b[22m\x1b[32m[here:p:main]\x1b[0m \x1b[1m\x1b[37mmessage 1\x1b[0m"] := by decide +kernel

end Ex

namespace Ex

/-! ## The theorems on these cases -/

theorem shuffled_inTime : InTime 200 0 shuffled := by simp [InTime, shuffled, recA, recB, recC]
example := C53_at_most_once (logEnv false) 0 [] shuffled (by decide +kernel)
/-- A record that can be written in colour. -/
example : ∃ line, ((HandlerSt.init 0).run (logEnv true) [.emit recA, .tick 201, .poll, .poll, .poll]).2 = [.wrote recA line] := by
  have h : ((HandlerSt.init 0).run (logEnv true) [.emit recA, .tick 201, .poll, .poll, .poll]).2.map LogOut.record = [recA] := by decide +kernel
  have hw := C53_written (logEnv true) (HandlerSt.init 0) [.emit recA, .tick 201, .poll, .poll, .poll]
  cases hos : ((HandlerSt.init 0).run (logEnv true) [.emit recA, .tick 201, .poll, .poll, .poll]).2 with
  | nil => rw [hos] at h; cases h
  | cons o os =>
    rw [hos] at h hw
    simp only [List.map_cons, List.cons.injEq, List.map_eq_nil_iff] at h
    obtain ⟨line, hl⟩ := hw o (by simp) (by rw [h.1]; exact ⟨⟨_, rfl⟩, fun _ => by decide⟩)
    rw [h.1] at hl
    exact ⟨line, by rw [hl, h.2]⟩
example : (((HandlerSt.init 0).run (logEnv false) (oneLeft ++ .flush :: List.replicate 2 (.write 0))).2.map LogOut.record).Perm [recA, recB] := by
  have hp : ((HandlerSt.init 0).run (logEnv false) oneLeft).1.poll = .top := by decide +kernel
  have hf : ((HandlerSt.init 0).run (logEnv false) oneLeft).1.flushes.flatten = [] := by decide +kernel
  have h := C53_final_partial (logEnv false) 0 [] oneLeft _ _ (by exact rfl) (fun l h => by rw [hp] at h; cases h) hf
  have h1 : ((HandlerSt.init 0).run (logEnv false) oneLeft).1.records.length = 1 ∧ ((HandlerSt.init 0).run (logEnv false) oneLeft).1.flushes.length = 0 ∧
    emittedOf oneLeft = [recA, recB] := by decide +kernel
  rw [h1.1, h1.2.1, h1.2.2] at h
  exact h
example := C54_order (E := logEnv false) (hs := []) (by decide +kernel) shuffled_inTime
example := C54_stable (E := logEnv false) (hs := []) (by decide +kernel) shuffled_inTime 100
example := C54_stream (E := logEnv false) (hs := []) (by decide +kernel) shuffled_inTime

end Ex

end Verif
