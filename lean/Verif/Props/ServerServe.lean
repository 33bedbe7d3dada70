import Verif.Proof.ServerNames
import Verif.Props.ServerExample
/-!
# Properties C09 and C10: a server keeps serving
-/
namespace Verif
open Ex (lib laws heap srv msg self)

theorem healthy_init (u : Bytes → Option String) (addr tys self) (hty : ∀ ty ∈ defaultTypes, ty ∈ effTypes tys) :
    Healthy u (Srv.init addr tys self) :=
  ⟨hty, rfl, rfl, rfl, by simp [Srv.init], by simp [Srv.init]⟩

/-! ## C09 -/

/-- **C09.** Whatever well-formed requests (other than `close`) ask for, whatever the invoked code returns or raises
and whatever the server's process does: the server goes on serving, no failure is left unreported, and the next
well-formed message, whatever it asks for, is read and processed. Messages are well-formed if they have six parts that
can be decoded, name a supported serializer and come from a UTF-8 caller; exception texts contain no lone
surrogates. -/
theorem C09_keeps_serving {L : Lib} (hL : L.Laws) (u : Bytes → Option String) (addr : String) (tys : List Ty) (self : Val)
    (hty : ∀ ty ∈ defaultTypes, ty ∈ effTypes tys) (es : List Ev) (hes : ∀ e ∈ es, TameEv L u e) :
    let s := (Srv.init addr tys self).run es
    s.1.Serving ∧ (∀ x ∈ s.2, x.failure = false) ∧
    ∀ H parts c m, readOne H parts = .ok (c, m) →
      ∃ o, (s.1.step (.recv H parts)).2 = .accept c m.reqId m.action m.serType :: o := by
  obtain ⟨h1, h2⟩ := run_tame hL es _ (healthy_init u addr tys self hty) hes
  refine ⟨⟨h1.isOpen, h1.alive, h1.sock⟩, h2, ?_⟩
  intro H parts c m hr
  simp only [Srv.step, h1.isOpen, h1.alive, h1.sock, hr, Bool.or_self, Bool.false_eq_true, Bool.true_eq_false, if_false]
  exact ⟨_, rfl⟩

/-- requests that fail in various ways: unknown action, missing options, undecodable payload, a call that exits,
a result that cannot be serialized -/
def exBad : List Ev := [msg 65 [1] 15 20 30 [], msg 65 [2] 10 20 31 [], msg 66 [3] 13 20 31 [9], msg 66 [4] 13 22 31 [3],
  .ret heap (.error (.other "SystemExit")), msg 66 [5] 13 22 31 [3], .ret heap (.ok (.dict [(.bytes [1], .none)]))]

theorem exBad_tame : ∀ e ∈ exBad, TameEv lib Ex.utf8 e := by
  intro e he
  have hm : ∀ c rid a rt s o, (readOne heap [[c], rid, [a], [rt], [s], o]).isOk = true → a ≠ 12 → serOf ((Ex.utf8 [s]).getD "") ≠ none →
      Ex.utf8 [c] ≠ none → (Ex.utf8 [a]).getD "" ≠ "close" → TameEv lib Ex.utf8 (msg c rid a rt s o) := by
    intro c rid a rt s o h1 _ h2 h3 h4
    refine ⟨rfl, rfl, rfl, ?_⟩
    intro H parts h
    simp only [msg, Ev.recv.injEq] at h
    obtain ⟨rfl, rfl⟩ := h
    simp only [WellFormed, AsksClose]
    simp only [readOne] at h1 ⊢
    have hu : heap.utf8 = Ex.utf8 := rfl
    simp only [hu] at h1 ⊢
    cases hi : heap.intOf rid with
    | none => rw [hi] at h1; simp [Except.isOk, Except.toBool] at h1
    | some i =>
      rw [hi] at h1
      cases ha : Ex.utf8 [a] with
      | none => rw [ha] at h1; simp [Except.isOk, Except.toBool] at h1
      | some a' =>
        cases hr : Ex.utf8 [rt] with
        | none => rw [ha, hr] at h1; simp [Except.isOk, Except.toBool] at h1
        | some r' =>
          cases hs : Ex.utf8 [s] with
          | none => rw [ha, hr, hs] at h1; simp [Except.isOk, Except.toBool] at h1
          | some s' =>
            rw [hs] at h2; rw [ha] at h4
            simp only [Option.getD_some] at h2 h4
            refine ⟨⟨_, _, rfl, h2, h3⟩, ?_⟩
            rintro ⟨c', m', h5, h6⟩
            simp only [Except.ok.injEq, Prod.mk.injEq] at h5
            rw [← h5.2] at h6
            exact h4 h6
  simp only [exBad, List.mem_cons, List.not_mem_nil, or_false] at he
  rcases he with rfl | rfl | rfl | rfl | rfl | rfl | rfl
  · exact hm _ _ _ _ _ _ (by decide +kernel) (by decide) (by decide +kernel) (by decide +kernel) (by decide +kernel)
  · exact hm _ _ _ _ _ _ (by decide +kernel) (by decide) (by decide +kernel) (by decide +kernel) (by decide +kernel)
  · exact hm _ _ _ _ _ _ (by decide +kernel) (by decide) (by decide +kernel) (by decide +kernel) (by decide +kernel)
  · exact hm _ _ _ _ _ _ (by decide +kernel) (by decide) (by decide +kernel) (by decide +kernel) (by decide +kernel)
  · exact ⟨rfl, rfl, rfl, by simp⟩
  · exact hm _ _ _ _ _ _ (by decide +kernel) (by decide) (by decide +kernel) (by decide +kernel) (by decide +kernel)
  · exact ⟨rfl, rfl, rfl, by simp⟩

example : ∀ ty ∈ defaultTypes, ty ∈ effTypes [] := by decide
/-- all five requests of the example were answered -/
example : countDone [65] 1 (srv.run exBad).2 = 1 ∧ countDone [65] 2 (srv.run exBad).2 = 1 ∧ countDone [66] 3 (srv.run exBad).2 = 1 ∧
    countReplies lib [66] 4 (srv.run exBad).2 = 1 ∧ countReplies lib [66] 5 (srv.run exBad).2 = 1 := by decide +kernel

/-! ## C10 -/

/-- **C10 fails in the code.** One message naming an unsupported serializer ends a new server: afterwards no message
is read any more. -/
theorem C10_negation : ∃ (s : Srv) (e : Ev), s = srv ∧ (∃ H parts c m, e = .recv H parts ∧ readOne H parts = .ok (c, m)) ∧
    (s.step e).1.dead = true ∧ ∀ H parts, ((s.step e).1.step (.recv H parts)).2 = [] := by
  refine ⟨srv, msg 65 [1] 14 20 32 [], rfl, ⟨_, _, _, _, rfl, rfl⟩, by decide +kernel, ?_⟩
  intro H parts
  have : (srv.step (msg 65 [1] 14 20 32 [])).1.dead = true := by decide +kernel
  simp [Srv.step] at this ⊢
  simp [this]

/-- **C10 (partial).** Exactly which messages end an idle healthy server: those that are not six decodable parts, and
those that ask for a reply but name an unsupported serializer or come from a caller whose name is not UTF-8. Missing
for C10: those messages should be refused. -/
theorem C10_fatal_messages_partial {H : Heap} (hL : H.lib.Laws) {s : Srv} (hh : Healthy H.utf8 s) (hidle : s.stack = [])
    (hb : H.tbBad = false) (parts : List Bytes) (hnc : ¬ AsksClose H parts) :
    (s.step (.recv H parts)).1.dead = true ↔
      Fails (readOne H parts) ∨ ∃ c m, readOne H parts = .ok (c, m) ∧ 0 ≤ m.reqId ∧ (serOf m.serType = none ∨ H.utf8 c = none) := by
  simp only [Srv.step, hh.isOpen, hh.alive, hh.sock, Bool.or_self, Bool.false_eq_true, Bool.true_eq_false, if_false]
  cases hr : readOne H parts with
  | error e => simp [hidle, Fails]
  | ok x =>
    obtain ⟨c, m⟩ := x
    simp only [Fails, reduceCtorEq, exists_false, Except.ok.injEq, Prod.mk.injEq, false_or]
    have hcl : m.action ≠ "close" := fun h => hnc ⟨c, m, hr, h⟩
    by_cases hbad : serOf m.serType = none ∨ H.utf8 c = none
    · -- cannot answer
      have hp : ∃ e, s.process H c m = ({ s with clients := s.clients.set c m.serType } : Srv).finish H c m.reqId m.returnType
          (decide (m.action = "close")) (.error e) := by
        rcases process_split H s c m with ⟨e, h, _⟩ | ⟨ser, cs, opts, h3, h4, _⟩
        · exact ⟨e, h⟩
        · rcases hbad with h | h
          · rw [h] at h3; simp at h3
          · rw [h] at h4; simp at h4
      obtain ⟨e, hp⟩ := hp
      rw [hp]
      by_cases hk : 0 ≤ m.reqId
      · have hse : ∃ s' e', ({ s with clients := s.clients.set c m.serType } : Srv).sendError H c m.reqId e = (s', .error e') ∧ s'.stack = s.stack := by
          obtain ⟨t, ht⟩ := sendError_state H { s with clients := s.clients.set c m.serType } c m.reqId e
          cases hu : H.utf8 c with
          | none => exact ⟨_, _, by simp only [Srv.sendError, hu]; exact ⟨rfl, rfl⟩⟩
          | some cs =>
            rcases hbad with h | h
            · exact ⟨_, _, by simp only [Srv.sendError, hu, Srv.sendResult, Dict.get?_set, if_true, Option.bind_some, h]; exact ⟨rfl, rfl⟩⟩
            · rw [h] at hu; simp at hu
        obtain ⟨s', e', h1, h2⟩ := hse
        rw [hidle] at h2
        simp only [Srv.finish, Srv.respond, hk, if_true, h1]
        simp only [h2, List.isEmpty_nil, Bool.or_true, true_iff]
        exact ⟨c, m, ⟨rfl, rfl⟩, hk, hbad⟩
      · simp only [Srv.finish, Srv.respond, hk, if_false, hcl, decide_false]
        constructor
        · intro h; exact absurd (hh.alive.symm.trans h) (by simp)
        · rintro ⟨c', m', ⟨rfl, rfl⟩, h, _⟩; exact absurd h hk
    · have hbad' := not_or.1 hbad
      have ht := (step_tame hL hh (e := .recv H parts) ⟨rfl, rfl, hb, by
        intro H' parts' h
        simp only [Ev.recv.injEq] at h
        obtain ⟨rfl, rfl⟩ := h
        exact ⟨⟨c, m, hr, hbad'.1, hbad'.2⟩, hnc⟩⟩).1.alive
      simp only [Srv.step, hh.isOpen, hh.alive, hh.sock, Bool.or_self, Bool.false_eq_true, Bool.true_eq_false, if_false, hr] at ht
      constructor
      · intro h; rw [ht] at h; simp at h
      · rintro ⟨c', m', ⟨rfl, rfl⟩, _, h⟩; exact absurd h hbad

example : Healthy heap.utf8 srv ∧ srv.stack = [] ∧ heap.tbBad = false ∧ heap.lib.Laws :=
  ⟨healthy_init _ _ _ _ (by decide), rfl, rfl, laws⟩

open Ex

/-! ## The theorems on these cases -/

example := C09_keeps_serving laws Ex.utf8 "tcp://a:1" [] self (by decide) exBad exBad_tame
/-- A message with an unsupported serializer. -/
example : (srv.step (msg 65 [1] 14 20 32 [])).1.dead = true :=
  (C10_fatal_messages_partial laws (healthy_init _ _ _ _ (by decide)) rfl rfl [[65], [1], [14], [20], [32], []] (by
    rintro ⟨c, m, h, h2⟩
    rw [show readOne heap [[65], [1], [14], [20], [32], []] = .ok ([65], ⟨1, "ping", "auto", "xml", []⟩) from rfl] at h
    simp only [Except.ok.injEq, Prod.mk.injEq] at h
    rw [← h.2] at h2; exact absurd h2 (by decide))).2 (.inr ⟨_, _, rfl, by decide, .inl (by decide)⟩)

end Verif
