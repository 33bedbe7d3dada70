import Verif.Props.SystemClose
import Verif.Props.SystemExample
/-! # The end of a concrete server -/
namespace Verif.Ex

/-- A and B ping; A's user code runs while B asks for the close; then all messages are read. -/
def evsClose : List SEv :=
  [req nA pingReq "auto" "async", .serve nA heap2, req nA (callObjReq (.int 5) (.list []) (.dict [])) "auto" "async", .serve nA heap2,
   req nB pingReq "auto" "async", req nB closeReq "auto" "async", .serve nB heap2, .serve nB heap2,
   rd nA, rd nA, rd nB, rd nB]

theorem world_close : World codec2 lib heap2.idOf srv sers2 evsClose :=
  world2 (by simp [evsClose, req, rd, SEv.heap?]) (by simp only [evsClose, req, rd, List.mem_cons, List.not_mem_nil, reduceCtorEq, false_or, or_false, SEv.deliver.injEq]; rintro n P j (h | h | h | h) <;> exact h.2.1)

/-- C36: the server was closed. -/
theorem ended_close : (sys.run codec2 evsClose).Ended := by
  constructor <;> decide +kernel

/-- C36: both clients have read all messages. -/
theorem readAll_A : ReadAll codec2 srv sers2 evsClose nA where
  known := by decide +kernel
  none_left := by
    have : (((Sys.init srv sers2).run codec2 evsClose).down nA).isEmpty = true := by decide +kernel
    exact List.isEmpty_iff.1 this
  none_lost := by simp [evsClose, req, rd]
  socket := by simp [evsClose, req, rd]
theorem readAll_B : ReadAll codec2 srv sers2 evsClose nB where
  known := by decide +kernel
  none_left := by
    have : (((Sys.init srv sers2).run codec2 evsClose).down nB).isEmpty = true := by decide +kernel
    exact List.isEmpty_iff.1 this
  none_lost := by simp [evsClose, req, rd]
  socket := by simp [evsClose, req, rd]

/-- the close requests of a client ask for a reply by value and their futures are held, as a computation -/
def closesWithReply (K : Codec) (s : Sys) (es : List SEv) (n : Bytes) : Bool :=
  (s.asked K es n).all fun q => !decide (q.action = "close") || (!decide (q.returnType = "proxy") && decide (0 ≤ q.id) &&
    (((s.run K es).cli n).fut q.id.toNat).isSome)

theorem closesWithReply_of {es n} (h : closesWithReply codec2 sys es n = true) : ClosesWithReply codec2 srv sers2 es n := by
  intro q hq ha
  have := List.all_eq_true.1 h q hq
  simp only [ha, decide_true, Bool.not_true, Bool.false_or, Bool.and_eq_true, Bool.not_eq_true', decide_eq_false_iff_not, decide_eq_true_eq] at this
  refine ⟨this.1.1, q.id.toNat, by omega, ?_⟩
  have h2 := this.2
  intro h3
  rw [show Sys.init srv sers2 = sys from rfl] at h3
  rw [h3] at h2; simp at h2

theorem closes_A : ClosesWithReply codec2 srv sers2 evsClose nA := closesWithReply_of (by decide +kernel)
theorem closes_B : ClosesWithReply codec2 srv sers2 evsClose nB := closesWithReply_of (by decide +kernel)

/-- C36: A's ping was answered, its call was not; B's requests were. -/
example : (match ((sys.run codec2 evsClose).cli nA).fut 0, ((sys.run codec2 evsClose).cli nA).fut 1,
      ((sys.run codec2 evsClose).cli nB).fut 0, ((sys.run codec2 evsClose).cli nB).fut 1 with
    | some (.value (.str "pong")), some .gone, some (.value (.str "pong")), some (.value (.bool true)) => true
    | _, _, _, _ => false) = true := by decide +kernel

example : ((sys.run codec2 evsClose).cli nA).disconnected = true ∧ ((sys.run codec2 evsClose).cli nB).disconnected = true :=
  ⟨ended_disconnected world_close ended_close readAll_A closes_A, ended_disconnected world_close ended_close readAll_B closes_B⟩

/-! ## Where the code does not do what C36 and C37 ask for -/

/-- B closes with sync='off'. -/
def evsOff : List SEv :=
  [req nB pingReq "auto" "async", .serve nB heap2, req nB closeReq "auto" "off", .serve nB heap2, rd nB, rd nB, rd nB]

/-- **C37 fails**: after `close_server(sync='off')` has been carried out and the closing client has read all its messages
(any number of further messages cannot come: the server's socket is closed), `disconnected()` is still False. -/
theorem C37_fails : World codec2 lib heap2.idOf srv sers2 evsOff ∧ (sys.run codec2 evsOff).Ended ∧
    ReadAll codec2 srv sers2 evsOff nB ∧ ((sys.run codec2 evsOff).cli nB).disconnected = false := by
  refine ⟨world2 (by simp [evsOff, req, rd, SEv.heap?]) (by simp only [evsOff, req, rd, List.mem_cons, List.not_mem_nil, reduceCtorEq, false_or, or_false, SEv.deliver.injEq]; rintro n P j (h | h | h) <;> exact h.2.1), ?_, ?_, ?_⟩
  · constructor <;> decide +kernel
  · refine ⟨by decide +kernel, ?_, by simp [evsOff, req, rd], by simp [evsOff, req, rd]⟩
    have : (((Sys.init srv sers2).run codec2 evsOff).down nB).isEmpty = true := by decide +kernel
    exact List.isEmpty_iff.1 this
  · decide +kernel

/-- B waits for a call and closes, asking for a proxy to the result. -/
def evsProxy : List SEv :=
  [req nB (callObjReq (.int 5) (.list []) (.dict [])) "auto" "async", .serve nB heap2, req nB closeReq "proxy" "async", .serve nB heap2,
   rd nB, rd nB]

theorem world_proxy : World codec2 lib heap2.idOf srv sers2 evsProxy :=
  world2 (by simp [evsProxy, req, rd, SEv.heap?]) (by simp only [evsProxy, req, rd, List.mem_cons, List.not_mem_nil, reduceCtorEq, false_or, or_false, SEv.deliver.injEq]; rintro n P j (h | h) <;> exact h.2.1)

theorem readAll_proxy : ReadAll codec2 srv sers2 evsProxy nB where
  known := by decide +kernel
  none_left := by
    have : (((Sys.init srv sers2).run codec2 evsProxy).down nB).isEmpty = true := by decide +kernel
    exact List.isEmpty_iff.1 this
  none_lost := by simp [evsProxy, req, rd]
  socket := by simp [evsProxy, req, rd]

/-- **C36 fails** for a client that closes the server with return_type='proxy': it asked for a reply, holds the future and has
read all messages, but another future of it is pending for ever. (`_close_request_returned` asks whether the result is
True, and the result is a proxy; client.py:563-568.) -/
theorem C36_fails : World codec2 lib heap2.idOf srv sers2 evsProxy ∧ (sys.run codec2 evsProxy).Ended ∧
    ReadAll codec2 srv sers2 evsProxy nB ∧
    (∀ q ∈ sys.asked codec2 evsProxy nB, q.action = "close" → 0 ≤ q.id) ∧
    (match ((sys.run codec2 evsProxy).cli nB).fut 0 with | some .pending => true | _ => false) = true := by
  refine ⟨world_proxy, ⟨by decide +kernel, by decide +kernel⟩, readAll_proxy, ?_, by decide +kernel⟩
  have h : ((sys.asked codec2 evsProxy nB).all fun q => decide (0 ≤ q.id)) = true := by decide +kernel
  intro q hq _
  exact of_decide_eq_true (List.all_eq_true.1 h q hq)

/-! ## The theorems on these cases -/

example (k : Nat) := C36_no_pending_partial world_close ended_close readAll_A closes_A k
example := C37_learns_partial world_close ended_close readAll_B closes_B
/-- All that A reads are trees it can read. -/
theorem reads_A : ∀ P w, .recv P w ∈ (Sys.init srv sers2).cliHist codec2 nA evsClose → ∃ v, (sers2 nA).loads P.recv w = .ok v := by
  intro P w h
  have hb : ((Sys.init srv sers2).cliHist codec2 nA evsClose).all (fun e => match e with | .recv P w => ((sers2 nA).loads P.recv w).isOk | _ => true) = true := by decide +kernel
  have := List.all_eq_true.1 hb _ h
  simp only at this
  cases hl : (sers2 nA).loads P.recv w with
  | ok v => exact ⟨v, rfl⟩
  | error e => rw [hl] at this; cases this
theorem closed_fut : ∃ f, (((Sys.init srv sers2).run codec2 evsClose).cli nA).fut 1 = some f := by
  have h : ((((Sys.init srv sers2).run codec2 evsClose).cli nA).fut 1).isSome = true := by decide +kernel
  exact Option.isSome_iff_exists.1 h
example := C36_answers_partial world_close ended_close readAll_A closes_A reads_A closed_fut.choose_spec

end Verif.Ex
