import Verif.Props.System
import Verif.Props.SystemExample
/-!
# C109: the transcript of a remote exception

/repo/teleprox/client.py:637-644, 656-658, /repo/teleprox/server.py:325-330.
-/
namespace Verif

theorem strItems_map (l : List String) : strItems (l.map .str) = some l := by
  induction l with
  | nil => rfl
  | cons x l ih => simp [strItems, ih]

/-- The text that tells of an exception raised by request `k` of client `n` while the server's process was in state `H`: which request it was, where it was caught, and Python's own
account of it. -/
def Tells109 (H : Heap) (n : Bytes) (k : Int) (text : String) : Prop :=
  ∃ who, H.utf8 n = some who ∧ text = "\n===> Remote exception was:\n" ++ ("Error while processing request " ++ who ++ " [" ++ toString k ++ "]: ") ++ String.join H.stackText ++
    " < exception caught here >\n" ++ String.join H.tb

theorem transcript_tells {H : Heap} {n : Bytes} (k : Int) (hn : H.utf8 n ≠ none) :
    ∃ text, remoteText (.list ((H.transcript n k).map .str)) = .ok text ∧ Tells109 H n k text := by
  obtain ⟨who, hw⟩ := Option.ne_none_iff_exists'.mp hn
  refine ⟨"\n===> Remote exception was:\n" ++ String.join (H.transcript n k), by simp only [remoteText, strItems_map], who, hw, ?_⟩
  simp only [Heap.transcript, hw, Option.getD_some, List.cons_append, String.join_cons, String.join_append]
  simp only [String.join_nil, String.append_empty, String.append_assoc]

/-- **C109** In every run of a server and its clients: if a request's future holds a RemoteCallException, then the request was carried out and raised an exception of the class it
names (or its result could not be sent), and the exception's text has the server's transcript in full: client and number of the request, the stack and Python's account of the exception,
at the moment it was caught. -/
theorem C109_transcript {K : Codec} {L : Lib} {idOf : Obj → Nat} {addr : String} {tys : List Ty} {self : Val} {sers : Bytes → Ser}
    {es : List SEv} (W : World K L idOf (Srv.init addr tys self) sers es) {n : Bytes} {k : Nat} {a tb : Val}
    (hf : (((Sys.init (Srv.init addr tys self) sers).run K es).cli n).fut k = some (.remote a tb)) :
    ∃ q ∈ (Sys.init (Srv.init addr tys self) sers).asked K es n, q.id = k ∧ ∃ H r s1 s2 x text,
      Execution (Srv.init addr tys self) ((Sys.init (Srv.init addr tys self) sers).srvHist K es) n (q.parts K) k q.returnType H r s1 s2 ∧
      (r = .error x ∨ ∃ v, r = .ok v ∧ ¬ q.ser.Serializable L s1.tys v) ∧
      a = .str x.name ∧ remoteText tb = .ok text ∧ Tells109 H n k text := by
  obtain ⟨q, hq, hk, -, H, r, s1, s2, P, junk, hex, -, hrep⟩ := C34_result W hf trivial
  cases hrep with
  | raised x hn =>
    obtain ⟨text, h1, h2⟩ := transcript_tells (k := k) hn
    exact ⟨q, hq, hk, H, _, s1, s2, x, text, hex, .inl rfl, rfl, h1, h2⟩
  | unserializable v x hn hsv hns =>
    obtain ⟨text, h1, h2⟩ := transcript_tells (k := k) hn
    exact ⟨q, hq, hk, H, _, s1, s2, x, text, hex, .inr ⟨v, rfl, hns⟩, rfl, h1, h2⟩

/-- **C109** The text is everything the server sent, in order; if what it sent is no text and has items that are no text, `str()` of the exception raises `TypeError` instead. -/
theorem C109_text (l : List Val) : (∀ xs, l = xs.map .str → remoteText (.list l) = .ok ("\n===> Remote exception was:\n" ++ String.join xs)) ∧
    ((∃ v ∈ l, ∀ x, v ≠ .str x) → remoteText (.list l) = .error .typeError) := by
  refine ⟨fun xs h => by subst h; simp only [remoteText, strItems_map], fun h => ?_⟩
  have : strItems l = none := by
    induction l with
    | nil => obtain ⟨v, hv, _⟩ := h; simp at hv
    | cons a l ih =>
      obtain ⟨v, hv, hn⟩ := h
      cases a with
      | str y =>
        rcases List.mem_cons.1 hv with rfl | hv
        · exact absurd rfl (hn y)
        · simp only [strItems, ih ⟨v, hv, hn⟩, Option.map_none]
      | _ => rfl
  simp only [remoteText, this]

example : remoteText (.list [.str "a", .int 1]) = .error .typeError := (C109_text _).2 ⟨.int 1, by simp, by simp⟩

namespace Ex
/-- C109: in the run of C34's example, the first request of A raised AttributeError. -/
example : World codec2 lib heap2.idOf srv sers2 evs ∧ (match ((sys.run codec2 evs).cli nA).fut 0 with
    | some (.remote (.str "AttributeError") tb) => (match remoteText tb with
      | .ok t => decide (t = "\n===> Remote exception was:\nError while processing request A [0]: Stack < exception caught here >\nTraceback")
      | .error _ => false)
    | _ => false) = true := ⟨world_evs, by decide +kernel⟩
end Ex

namespace Ex
theorem evs_raised : ∃ a tb, (((Sys.init (Srv.init "tcp://a:1" [] self) sers2).run codec2 evs).cli nA).fut 0 = some (.remote a tb) := by
  have h : (match (((Sys.init (Srv.init "tcp://a:1" [] self) sers2).run codec2 evs).cli nA).fut 0 with | some (.remote _ _) => true | _ => false) = true := by decide +kernel
  split at h
  · rename_i a tb hv; exact ⟨a, tb, hv⟩
  · cases h
example := C109_transcript world_evs evs_raised.choose_spec.choose_spec
end Ex

end Verif
