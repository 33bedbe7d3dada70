import Verif.Props.SystemExample
import Verif.Proof.SystemClose
/-!
# C124: a request sent after a result was seen is carried out after it
-/
namespace Verif

/-- An execution of a message that is not read in the first part of a history takes place in the second part, from the state the
first one leaves. -/
theorem execution_after {srv : Srv} {a b : List Ev} {c : Bytes} {parts : List Bytes} {k : Int} {rt : String} {H : Heap}
    {r : Except Exc Val} {s1 s2 : Srv} (h : Execution srv (a ++ b) c parts k rt H r s1 s2)
    (hn : ∀ H', .recv H' (c :: parts) ∉ a) : Execution (srv.run a).1 b c parts k rt H r s1 s2 := by
  have split : ∀ {pre post : List Ev} {H' : Heap}, a ++ b = pre ++ .recv H' (c :: parts) :: post →
      ∃ x, pre = a ++ x ∧ b = x ++ .recv H' (c :: parts) :: post := by
    intro pre post H' he
    rcases List.append_eq_append_iff.1 he with ⟨x, e1, e2⟩ | ⟨x, e1, e2⟩
    · exact ⟨x, e1, e2⟩
    · cases x with
      | nil => exact ⟨[], by simpa using e1.symm, by simpa using e2.symm⟩
      | cons y x =>
        simp only [List.cons_append, List.cons.injEq] at e2
        exact absurd (by rw [e1, ← e2.1]; simp) (hn H')
  cases h with
  | @atOnce pre post H r s1 he hc =>
    obtain ⟨x, rfl, hb⟩ := split he
    rw [run_append_state] at hc
    have := Execution.atOnce hb hc
    rw [List.append_assoc, run_append_state]
    exact this
  | @later pre mid post H H' r0 task he hb hm hs =>
    obtain ⟨x, rfl, hb'⟩ := split he
    simp only [List.append_assoc, run_append_state srv a] at hb hm hs ⊢
    exact Execution.later hb' hb hm hs

/-- A request with this id was not yet sent: the server has not read it. -/
theorem not_read_yet {K : Codec} {addr : String} {tys : List Ty} {self : Val} {sers : Bytes → Ser}
    {es1 es2 : List SEv} (hfit : ∀ e ∈ es1, ∀ H, e.heap? = some H → Fits K H) {m : Bytes} {q : Asked}
    (hlate : ((((Sys.init (Srv.init addr tys self) sers).run K es1).cli m).nextId : Int) ≤ q.id) (H : Heap) :
    .recv H (m :: q.parts K) ∉ (Sys.init (Srv.init addr tys self) sers).srvHist K es1 := by
  intro hin
  obtain ⟨n', q', he, hq⟩ := recv_asked (A := fun _ => []) hfit (fun _ => rfl) hin
  simp only [List.not_mem_nil, false_or] at hq
  simp only [List.cons.injEq] at he
  obtain ⟨rfl, he⟩ := he
  obtain ⟨se, hse, hheap⟩ := srvHist_heap hin
  have hnum := (hfit se hse H hheap).num
  simp only [Asked.parts, List.cons.injEq] at he
  have h1 := hnum q.id
  rw [he.1, hnum q'.id] at h1
  simp only [Option.some.injEq] at h1
  have := (asked_ids K ((Sys.init (Srv.init addr tys self) sers).cliHist K m es1) ((Sys.init (Srv.init addr tys self) sers).cli m)).1 q' hq
  rw [sys_run_cli] at hlate
  omega

/-- **C124** In any run of a server and any number of clients: some client `n` (any of them) has seen the answer of its request
`k`, and after that a client `m` (the same or another) sends a request `j`, which is answered as well. Then request `k`
was carried out, from reading its message to its reply, before `m` sent `j`; and `j` was carried out wholly after it, by the
server as it was left by then. Both futures report the outcomes of these executions. -/
theorem C124_real_time {K : Codec} {L : Lib} {idOf : Obj → Nat} {addr : String} {tys : List Ty} {self : Val} {sers : Bytes → Ser}
    {es1 es2 : List SEv} (W : World K L idOf (Srv.init addr tys self) sers (es1 ++ es2)) {n m : Bytes} {k j : Nat} {f g : Fut}
    (hf : (((Sys.init (Srv.init addr tys self) sers).run K es1).cli n).fut k = some f) (ha : f.answered)
    (hlate : (((Sys.init (Srv.init addr tys self) sers).run K es1).cli m).nextId ≤ j)
    (hg : (((Sys.init (Srv.init addr tys self) sers).run K (es1 ++ es2)).cli m).fut j = some g) (hb : g.answered) :
    (∃ q ∈ (Sys.init (Srv.init addr tys self) sers).asked K es1 n, q.id = k ∧
      ∃ H r s1 s2 P, Execution (Srv.init addr tys self) ((Sys.init (Srv.init addr tys self) sers).srvHist K es1)
        n (q.parts K) k q.returnType H r s1 s2 ∧ Reports L n k H P q.ser s1 s2.refs q.returnType r f) ∧
    ∃ q ∈ (Sys.init (Srv.init addr tys self) sers).asked K (es1 ++ es2) m, q.id = j ∧
      q ∉ (Sys.init (Srv.init addr tys self) sers).asked K es1 m ∧
      ∃ H r s1 s2 P, Execution ((Sys.init (Srv.init addr tys self) sers).run K es1).srv
        (((Sys.init (Srv.init addr tys self) sers).run K es1).srvHist K es2) m (q.parts K) j q.returnType H r s1 s2 ∧
        Reports L m j H P q.ser s1 s2.refs q.returnType r g := by
  constructor
  · obtain ⟨q, h1, h2, -, H, r, s1, s2, P, -, h4, -, h6⟩ := C34_result W.prefix hf ha
    exact ⟨q, h1, h2, H, r, s1, s2, P.recv, h4, h6⟩
  · obtain ⟨q, h1, h2, -, H, r, s1, s2, P, -, h4, -, h6⟩ := C34_result W hg hb
    have hl : ((((Sys.init (Srv.init addr tys self) sers).run K es1).cli m).nextId : Int) ≤ q.id := by rw [h2]; omega
    refine ⟨q, h1, h2, fun h => ?_, H, r, s1, s2, P.recv, ?_, h6⟩
    · have := (asked_ids K ((Sys.init (Srv.init addr tys self) sers).cliHist K m es1) ((Sys.init (Srv.init addr tys self) sers).cli m)).1 q h
      rw [sys_run_cli] at hl
      omega
    · rw [srvHist_append] at h4
      have := execution_after h4 (not_read_yet (es2 := es2) W.prefix.fits hl)
      rw [sys_run_srv]
      exact this

/-- **C124** No request is started before it is sent. -/
theorem C124_not_before {K : Codec} {addr : String} {tys : List Ty} {self : Val} {sers : Bytes → Ser} {es : List SEv}
    (hf : ∀ e ∈ es, ∀ H, e.heap? = some H → Fits K H) (n : Bytes) (k : Nat)
    (hlate : (((Sys.init (Srv.init addr tys self) sers).run K es).cli n).nextId ≤ k) :
    countAccepted n k ((Sys.init (Srv.init addr tys self) sers).outs K es) = 0 := by
  rw [countAccepted_started, List.countP_eq_zero]
  intro x hx
  have hsub := C35_in_order (addr := addr) (tys := tys) (self := self) (sers := sers) hf n
  obtain ⟨q, hq, rfl⟩ := List.mem_map.1 (hsub.subset hx)
  have := (asked_ids K ((Sys.init (Srv.init addr tys self) sers).cliHist K n es) ((Sys.init (Srv.init addr tys self) sers).cli n)).1 q hq
  rw [sys_run_cli] at hlate
  have hne : q.id ≠ (k : Int) := by omega
  exact fun h => hne (of_decide_eq_true h)

/-! ## An example: B reads the name it published; A's call has failed; then A asks for the name -/

namespace Ex

/-- The circumstances of C124: B's answer was there before A sent its second request. -/
example : (match ((sys.run codec2 (evs.take 9)).cli nB).fut 0 with | some (.value _) => true | _ => false) = true ∧
    ((sys.run codec2 (evs.take 9)).cli nA).nextId = 1 ∧
    (match ((sys.run codec2 (evs.take 9 ++ evs.drop 9)).cli nA).fut 1 with | some (.value _) => true | _ => false) = true := by
  decide +kernel

example : ∃ f g q H r s1 s2 P, ((sys.run codec2 (evs.take 9)).cli nB).fut 0 = some f ∧ f.answered ∧
    Execution (sys.run codec2 (evs.take 9)).srv ((sys.run codec2 (evs.take 9)).srvHist codec2 (evs.drop 9)) nA
      (Asked.parts codec2 q) 1 q.returnType H r s1 s2 ∧ Reports lib nA 1 H P q.ser s1 s2.refs q.returnType r g := by
  have e1 : (match ((sys.run codec2 (evs.take 9)).cli nB).fut 0 with | some (.value _) => true | _ => false) = true := by decide +kernel
  have e2 : (match ((sys.run codec2 (evs.take 9 ++ evs.drop 9)).cli nA).fut 1 with | some (.value _) => true | _ => false) = true := by
    decide +kernel
  generalize hv : ((sys.run codec2 (evs.take 9)).cli nB).fut 0 = x at e1
  generalize hv' : ((sys.run codec2 (evs.take 9 ++ evs.drop 9)).cli nA).fut 1 = y at e2
  split at e1
  · split at e2
    · obtain ⟨-, q, -, -, -, H, r, s1, s2, P, h1, h2⟩ := C124_real_time (es1 := evs.take 9) (es2 := evs.drop 9) (j := 1)
        (by rw [List.take_append_drop]; exact world_evs) hv trivial (by decide +kernel) hv' trivial
      exact ⟨_, _, q, H, r, s1, s2, P, rfl, trivial, h1, h2⟩
    · simp at e2
  · simp at e1

theorem world_evs_prefix : World codec2 lib heap2.idOf srv sers2 (evs.take 9) :=
  World.prefix (b := evs.drop 9) (by rw [List.take_append_drop]; exact world_evs)

example : countAccepted nA 1 (sys.outs codec2 (evs.take 9)) = 0 ∧ countAccepted nA 1 (sys.outs codec2 evs) = 1 :=
  ⟨C124_not_before world_evs_prefix.fits nA 1 (by decide +kernel), by decide +kernel⟩

end Ex

end Verif
