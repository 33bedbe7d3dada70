import Verif.Proof.Exec
/-! # C128: what reading a message runs

`loads` calls `pickle.loads` and `exec` on what arrives. The theorems below say which calls a message can cause. The
full statement — reading a message runs no code that arrived with it — is false of the code.
-/
namespace Verif
open Ex

/-- **C128.** The reader that also lists the calls gives what `loads` gives, on every message. -/
theorem C128_faithful (R : RecvEnv) (w : Wire) :
    (unpackT R w).2 = msgpackLoads R w ∧ (junpackT R w).2 = jsonLoads R w :=
  ⟨unpackT_snd R w, junpackT_snd R w⟩

/-! ## The full statement is false -/

/-- The dict a program may pass to a call like any other: a pickle under the reserved key. -/
def pickleDict (b : Bytes) : Val := .dict [(.str encodeKey, .str "pickle"), (.str "pickle_str", .bytes b)]

/-- **C128.** The full statement is false: for every receiver and all bytes there is a message, which an unmodified
sender writes for an ordinary dict, whose reading passes just these bytes to `pickle.loads`. -/
theorem C128_negation (R : RecvEnv) (E : SendEnv) (t : Refs) (b : Bytes) :
    ∃ w, msgpackDumps E t (pickleDict b) = (t, .ok w) ∧ (unpackT R w).1 = [.pickle b] ∧
      msgpackLoads R w = R.lib.pickleLoads b :=
  ⟨.map [(.str encodeKey, .str "pickle"), (.str "pickle_str", .bin b)], rfl, rfl, rfl⟩

/-- **C128.** The same for the JSON format, where bytes travel as a nested object. -/
theorem C128_negation_json (R : RecvEnv) (E : SendEnv) (t : Refs) (b : Bytes) :
    ∃ w, jsonDumps E t (pickleDict b) = (t, .ok w) ∧ (junpackT R w).1 = [.pickle b] ∧
      jsonLoads R w = R.lib.pickleLoads b := by
  have h : jdecode R [(.str encodeKey, .str "bytes"), (.str "data", .str (String.ofList (b64encode b)))] = .ok (.bytes b) := by
    change (match b64decode (String.ofList (b64encode b)).toList with
      | .ok b => Except.ok (Val.bytes b)
      | .error e => Except.error e) = _
    rw [String.toList_ofList, b64_roundtrip]
  have h1 : ∀ w, junpackT R w = ([], .ok (.bytes b)) → junpackT R (.map [(.str encodeKey, .str "pickle"), (.str "pickle_str", w)])
      = ([.pickle b], R.lib.pickleLoads b) := by
    intro w hw
    simp only [junpackT, junpackTM, hw]
    rfl
  have h2 := h1 (.map [(.str encodeKey, .str "bytes"), (.str "data", .str (String.ofList (b64encode b)))]) (by
    simp only [junpackT, junpackTM]
    exact Prod.ext rfl h)
  refine ⟨_, rfl, congrArg (·.1) h2, ?_⟩
  rw [jsonLoads, ← junpackT_snd]
  exact congrArg (·.2) h2

/-- **C128.** For every receiver and every text that begins with `[` there is a message whose reading passes this text
to `exec`. -/
theorem C128_negation_exec (R : RecvEnv) (s : String) (hs : startsWithC '[' s = true) :
    ∃ w, (unpackT R w).1 = [.exec s] := by
  refine ⟨.map [(.str encodeKey, .str "ndarray"), (.str "dtype", .str s), (.str "data", .bin [])], ?_⟩
  change (if startsWithC '[' s = true then _ else _) = _
  rw [if_pos hs]

/-- **C128.** A message that is refused as a whole has run its first part all the same. -/
theorem C128_refused (R : RecvEnv) (b : Bytes) (v : Val) (hv : R.lib.pickleLoads b = .ok v) :
    ∃ w e, (unpackT R w).1 = [.pickle b] ∧ msgpackLoads R w = .error e := by
  let p : Wire := .map [(.str encodeKey, .str "pickle"), (.str "pickle_str", .bin b)]
  have h : unpackT R p = ([.pickle b], .ok v) := by rw [← hv]; rfl
  have h' : unpackT R (.arr [p, .map [(.int 0, .nil)]]) = ([.pickle b], .error .valueError) := by
    simp only [unpackT, unpackTL, h]; rfl
  exact ⟨.arr [p, .map [(.int 0, .nil)]], .valueError, congrArg (·.1) h', by
    rw [msgpackLoads, ← unpackT_snd, h']⟩

/-- The statement that fails: no message runs anything. -/
example : ¬ ∀ w, (unpackT recvB w).1 = [] := fun h => by
  obtain ⟨w, _, hw, _⟩ := C128_negation recvB sendA Refs.init [1]
  rw [h w] at hw; cases hw

example : ∃ w, (unpackT recvB w).1 = [.exec "[].append(print('hello'))"] := C128_negation_exec _ _ (by decide)

/-! ## What holds -/

/-- **C128 (partial).** A message that `dumps` wrote for a supported value runs only pickles made by `pickle.dumps` and
printed names of structured dtypes. Missing: messages written by something else, and dicts that use the reserved key
(`C128_negation`). -/
theorem C128_written_partial {L E R h t} (hl : Link L E R) (hr : Reach E.idOf h t) (ha : Alive E h) {v t' w}
    (hs : Sendable R v) (hd : msgpackDumps E t v = (t', .ok w)) :
    ∀ r ∈ (unpackT R w).1, r.ownPickle L ∨ r.dtypeName L := by
  let G : Ran → Prop := fun r => r.ownPickle L ∨ r.dtypeName L
  have hd' : msgpackDumps (E.guard G) t v = (t', .ok w) := by rw [msgpackDumps, pack_guard]; exact hd
  obtain ⟨v', h1, _⟩ := C17_msgpack_transport (guard_link hl (G := G) (fun _ => .inl) (fun _ => .inr)) hr
    (show Alive (E.guard G) h from ⟨ha.sent, ha.held⟩) (sendable_guard v hs) hd'
  exact (unpack_guard w v' h1).2

/-- **C128 (partial).** A JSON message that `dumps` wrote for a supported value runs only pickles made by
`pickle.dumps`. Missing: as above. -/
theorem C128_written_json_partial {L E R h t} (hl : Link L E R) (hr : Reach E.idOf h t) (ha : Alive E h) {v t' w}
    (hs : JSendable R v) (hd : jsonDumps E t v = (t', .ok w)) :
    ∀ r ∈ (junpackT R w).1, r.ownPickle L := by
  let G : Ran → Prop := fun r => r.ownPickle L ∨ r.dtypeName L
  have hd' : jsonDumps (E.guard G) t v = (t', .ok w) := by rw [jsonDumps, jpack_guard]; exact hd
  obtain ⟨v', h1, _⟩ := C18_json_transport (guard_link hl (G := G) (fun _ => .inl) (fun _ => .inr)) hr
    (show Alive (E.guard G) h from ⟨ha.sent, ha.held⟩) (jsendable_guard v hs) hd'
  intro r hr
  rcases (junpack_guard w v' h1).2 r hr with h | ⟨d, _, _, rfl⟩
  · exact h
  · exact absurd hr (junpackT_noExec R _ w)

/-- **C128.** No JSON message, whoever wrote it, passes anything to `exec`. -/
theorem C128_json_no_exec (R : RecvEnv) (w : Wire) (s : String) : .exec s ∉ (junpackT R w).1 := junpackT_noExec R s w

/-- **C128 (partial).** A message in which no value of a map is the text `pickle` or `ndarray` runs nothing, whoever
wrote it, provided that the receiver does not serve one of these texts itself. Missing: messages with these texts. -/
theorem C128_harmless_partial (R : RecvEnv) (hR : R.servesNone ["pickle", "ndarray"]) (w : Wire)
    (hw : w.quiet ["pickle", "ndarray"] = true) : (unpackT R w).1 = [] := (unpackT_quiet hR w hw).1

/-- **C128 (partial).** The same for JSON, where only the text `pickle` matters. -/
theorem C128_harmless_json_partial (R : RecvEnv) (hR : R.servesNone ["pickle"]) (w : Wire)
    (hw : w.quiet ["pickle"] = true) : (junpackT R w).1 = [] := (junpackT_quiet hR w hw).1

/-- **C128.** The proviso is needed: where the receiver serves the text `pickle`, a message that names it through a
proxy runs a pickle. -/
theorem C128_served_text (R : RecvEnv) (a : String) (f : Proxy → Except Exc Val) (hs : R.server = some (a, f))
    (ha : a ≠ "pickle" ∧ a ≠ "ndarray") (hf : f ⟨a, 1, 2, "", []⟩ = .ok (.str "pickle")) (b : Bytes) :
    ∃ w, w.quiet ["pickle", "ndarray"] = true ∧ (unpackT R w).1 = [.pickle b] := by
  let p : Wire := .map [(.str encodeKey, .str "proxy"), (.str "rpc_addr", .str a), (.str "obj_id", .int 1), (.str "ref_id", .int 2)]
  have hp : unpackT R p = ([], .ok (.str "pickle")) := by
    refine Prod.ext rfl ?_
    change decodeProxy R [(.str "rpc_addr", .str a), (.str "obj_id", .int 1), (.str "ref_id", .int 2)] = _
    unfold decodeProxy
    change (match R.server with
      | some (addr, unwrap) => if a = addr then unwrap ⟨a, 1, 2, "", []⟩ else .ok (.proxy ⟨a, 1, 2, "", []⟩)
      | none => .ok (.proxy ⟨a, 1, 2, "", []⟩)) = _
    rw [hs]
    simp only [if_true, hf]
  refine ⟨.map [(.str encodeKey, p), (.str "pickle_str", .bin b)], ?_, ?_⟩
  · simp only [p, Wire.quiet, Wire.quietM, Wire.isText, Bool.and_true, Bool.true_and]
    simp [ha.1, ha.2]
  simp only [unpackT, unpackTM, hp]
  rfl

/-! ## Examples -/

example (b : Bytes) : ∃ w, w.quiet ["pickle", "ndarray"] = true ∧
    (unpackT ⟨lib, some ("tcp://b:2", fun _ => .ok (.str "pickle"))⟩ w).1 = [.pickle b] :=
  C128_served_text _ "tcp://b:2" (fun _ => .ok (.str "pickle")) rfl (by decide) rfl b

/-- `exVal` contains a pickled object and a numpy scalar: its message runs two pickles, both made by the sender. -/
example : ∃ t' w, msgpackDumps sendA Refs.init exVal = (t', .ok w) ∧ (unpackT recvB w).1.length = 2 ∧
    ∀ r ∈ (unpackT recvB w).1, r.ownPickle lib ∨ r.dtypeName lib := by
  have h : ((msgpackDumps sendA Refs.init exVal).2.toOption.map fun w => (unpackT recvB w).1.length) = some 2 := by
    decide +kernel
  cases hd : msgpackDumps sendA Refs.init exVal with
  | mk t' x =>
    rw [hd] at h
    cases x with
    | error e => cases h
    | ok w =>
      exact ⟨t', w, rfl, by simpa [Except.toOption] using h,
        C128_written_partial linkAB .init (alive _ _ rfl) exVal_sendable hd⟩

/-- A list with a pickled object by JSON. -/
example : ∃ t' w, jsonDumps sendA Refs.init (.list [.obj 2 [.sharedMemory], .int 3]) = (t', .ok w) ∧ (junpackT recvB w).1.length = 1 ∧
    ∀ r ∈ (junpackT recvB w).1, r.ownPickle lib := by
  have h : ((jsonDumps sendA Refs.init (.list [.obj 2 [.sharedMemory], .int 3])).2.toOption.map
      fun w => (junpackT recvB w).1.length) = some 1 := by
    decide +kernel
  cases hd : jsonDumps sendA Refs.init (.list [.obj 2 [.sharedMemory], .int 3]) with
  | mk t' x =>
    rw [hd] at h
    cases x with
    | error e => cases h
    | ok w =>
      exact ⟨t', w, rfl, by simpa [Except.toOption] using h,
        C128_written_json_partial linkAB .init (alive _ _ rfl) (by simp [JSendable, JSendableL]) hd⟩

example : ∃ b w e, (unpackT recvB w).1 = [.pickle b] ∧ msgpackLoads recvB w = .error e := by
  obtain ⟨b, hb⟩ := laws.pickleInt 3
  exact ⟨b, C128_refused recvB b _ (laws.pickle _ _ hb)⟩

example : recvB.servesNone ["pickle", "ndarray"] := by
  intro a f p v h hf
  simp only [recvB, Option.some.injEq, Prod.mk.injEq] at h
  rw [← h.2] at hf; cases hf

/-- A harmless message: the texts may occur in lists and as keys. -/
example : (Wire.map [(.str "pickle", .arr [.str "pickle", .str "ndarray"]),
    (.str "d", .map [(.str encodeKey, .str "tuple"), (.str "data", .arr [.int 1])])]).quiet ["pickle", "ndarray"] = true := by
  decide +kernel

theorem Ex.recvB_servesNone (l : List String) : Ex.recvB.servesNone l := by
  intro a f p v h hf
  simp only [Ex.recvB, Option.some.injEq, Prod.mk.injEq] at h
  rw [← h.2] at hf; cases hf
example := C128_harmless_partial Ex.recvB (Ex.recvB_servesNone _) (.map [(.str "pickle", .arr [.str "pickle", .str "ndarray"]),
  (.str "d", .map [(.str encodeKey, .str "tuple"), (.str "data", .arr [.int 1])])]) (by decide +kernel)
example := C128_harmless_json_partial Ex.recvB (Ex.recvB_servesNone _) (.map [(.str "pickle", .arr [.str "pickle", .str "ndarray"]),
  (.str "d", .map [(.str encodeKey, .str "ndarray"), (.str "data", .arr [.int 1])])]) (by decide +kernel)

end Verif
