import Verif.Proof.Asks
/-! # C129: requests made while a message is read

A proxy in a message is used by `decode` where a plain field is expected, and using a proxy asks the process it names.
The full statement — reading a message contacts no other process — is false of the code.
-/
namespace Verif
open Ex

/-- Reading that ends without a request gives what the model of reading without requests says. -/
theorem C129_faithful (R : RecvEnv) (w : Wire) (x : Except Exc Val) :
    (unpackQ R w = .done x → msgpackLoads R w = x) ∧ (junpackQ R w = .done x → jsonLoads R w = x) := by
  constructor
  · intro h; have := unpack_reads R w; rw [h] at this; exact this.symm
  · intro h; have := junpack_reads R w; rw [h] at this; exact this.symm

/-! ## The full statement is false -/

/-- **C129.** For every receiver, every proxy of another process and each of the places in `askPlaces`, an unmodified
sender writes for an ordinary dict a message whose reading asks that process. -/
theorem C129_negation (R : RecvEnv) (E : SendEnv) (hE : ∀ ty ∈ defaultTypes, ty ∈ E.tys) (t : Refs) (p : Proxy)
    (hp : p.foreign R) (ha : p.attrs = []) (ho : p.oid < 2 ^ 64) (hr : p.rid < 2 ^ 64) :
    ∀ x ∈ askPlaces p, ∃ w, msgpackDumps E t (.dict x.1) = (t, .ok w) ∧ unpackQ R w = .asks ⟨p, x.2.1, x.2.2⟩ := by
  have h1 := pack_proxyWire hE 507 t ha ho hr
  have h2 := unpack_proxyWire R ha hp
  have hd : ∀ d, msgpackDumps E t (.dict d) = (match mapS (pairS (pack E (507 + 2 + 1 + 1))) t d with
      | (t', .ok m) => (t', Except.ok (Wire.map m))
      | (t', .error e) => (t', .error e)) := fun _ => rfl
  have hs : ∀ s, pack E (507 + 2 + 1 + 1) t (.str s) = (t, .ok (.str s)) := fun _ => rfl
  have hi : pack E (507 + 2 + 1 + 1) t (.int 1) = (t, .ok (.int 1)) := pack_nat E (507 + 2 + 1) t (i := 1) (by decide)
  generalize pack E (507 + 2 + 1 + 1) = f at *
  intro x hx
  simp only [askPlaces, List.mem_cons, List.not_mem_nil, or_false] at hx
  rcases hx with rfl | rfl | rfl | rfl | rfl
  · refine ⟨.map [(.str encodeKey, proxyWire p)], ?_, ?_⟩
    · rw [hd]; simp only [mapS, pairS, hs, hi, h1]
    · simp only [unpackQ, unpackQM, keyOk, h2]; rfl
  · refine ⟨.map [(.str encodeKey, .str "ndarray"), (.str "dtype", proxyWire p)], ?_, ?_⟩
    · rw [hd]; simp only [mapS, pairS, hs, hi, h1]
    · simp only [unpackQ, unpackQM, keyOk, h2]; rfl
  · refine ⟨.map [(.str encodeKey, .str "np_number"), (.str "dtype", proxyWire p), (.str "value", .int 1)], ?_, ?_⟩
    · rw [hd]; simp only [mapS, pairS, hs, hi, h1]
    · simp only [unpackQ, unpackQM, keyOk, h2]; rfl
  · refine ⟨.map [(.str encodeKey, .str "tuple"), (.str "data", proxyWire p)], ?_, ?_⟩
    · rw [hd]; simp only [mapS, pairS, hs, hi, h1]
    · simp only [unpackQ, unpackQM, keyOk, h2]; rfl
  · refine ⟨.map [(.str encodeKey, .str "proxy"), (.str "attributes", proxyWire p)], ?_, ?_⟩
    · rw [hd]; simp only [mapS, pairS, hs, hi, h1]
    · simp only [unpackQ, unpackQM, keyOk, h2]; rfl

/-- **C129.** The same for JSON. -/
theorem C129_negation_json (R : RecvEnv) (E : SendEnv) (hE : ∀ ty ∈ defaultTypes, ty ∈ E.tys) (t : Refs) (p : Proxy)
    (hp : p.foreign R) (ha : p.attrs = []) :
    ∀ x ∈ jaskPlaces p, ∃ w, jsonDumps E t (.dict x.1) = (t, .ok w) ∧ junpackQ R w = .asks ⟨p, x.2.1, x.2.2⟩ := by
  obtain ⟨n, hn⟩ : ∃ n, jsonDepth = n + 1 + 1 + 1 := ⟨_, rfl⟩
  have h1 := jpack_proxyWire hE n t ha
  have h2 := junpack_proxyWire R ha hp
  have hd : ∀ d, jsonDumps E t (.dict d) = (match mapS (jpair E.lib (jpack E (n + 1 + 1))) t d with
      | (t', .ok m) => (t', Except.ok (Wire.map m))
      | (t', .error e) => (t', .error e)) := fun _ => by rw [jsonDumps, hn]; rfl
  have hs : ∀ s, jpack E (n + 1 + 1) t (.str s) = (t, .ok (.str s)) := fun _ => rfl
  have hi : jpack E (n + 1 + 1) t (.int 1) = (t, .ok (.int 1)) := rfl
  generalize jpack E (n + 1 + 1) = f at *
  intro x hx
  simp only [jaskPlaces, askPlaces, List.eraseIdx, List.mem_cons, List.not_mem_nil, or_false] at hx
  rcases hx with rfl | rfl | rfl | rfl
  · refine ⟨.map [(.str encodeKey, jproxyWire p)], ?_, ?_⟩
    · rw [hd]; simp only [mapS, jpair, jkey, Val.core, hs, hi, h1]
    · simp only [junpackQ, junpackQM, h2]; rfl
  · refine ⟨.map [(.str encodeKey, .str "np_number"), (.str "dtype", jproxyWire p), (.str "value", .int 1)], ?_, ?_⟩
    · rw [hd]; simp only [mapS, jpair, jkey, Val.core, hs, hi, h1]
    · simp only [junpackQ, junpackQM, h2]; rfl
  · refine ⟨.map [(.str encodeKey, .str "tuple"), (.str "data", jproxyWire p)], ?_, ?_⟩
    · rw [hd]; simp only [mapS, jpair, jkey, Val.core, hs, hi, h1]
    · simp only [junpackQ, junpackQM, h2]; rfl
  · refine ⟨.map [(.str encodeKey, .str "proxy"), (.str "attributes", jproxyWire p)], ?_, ?_⟩
    · rw [hd]; simp only [mapS, jpair, jkey, Val.core, hs, hi, h1]
    · simp only [junpackQ, junpackQM, h2]; rfl

/-! ## What holds -/

/-- **C129 (partial).** A message that `dumps` wrote for a supported value is read without a request. Missing: messages
written by something else, and dicts that use the reserved key (`C129_negation`). -/
theorem C129_written_partial {L E R h t} (hl : Link L E R) (hr : Reach E.idOf h t) (ha : Alive E h) {v t' w}
    (hs : Sendable R v) (hd : msgpackDumps E t v = (t', .ok w)) : ∃ v', unpackQ R w = .done (.ok v') := by
  obtain ⟨v', h1, _⟩ := C17_msgpack_transport hl hr ha hs hd
  exact ⟨v', reads_ok (unpack_reads R w) h1⟩

/-- **C129 (partial).** The same for JSON. -/
theorem C129_written_json_partial {L E R h t} (hl : Link L E R) (hr : Reach E.idOf h t) (ha : Alive E h) {v t' w}
    (hs : JSendable R v) (hd : jsonDumps E t v = (t', .ok w)) : ∃ v', junpackQ R w = .done (.ok v') := by
  obtain ⟨v', h1, _⟩ := C18_json_transport hl hr ha hs hd
  exact ⟨v', reads_ok (junpack_reads R w) h1⟩

/-- **C129 (partial).** A message in which no value of a map is the text `proxy` or `pickle` is read without a request,
whoever wrote it and whatever the receiver serves. Missing: messages with these texts. -/
theorem C129_harmless_partial (R : RecvEnv) (w : Wire) (hw : w.quiet ["proxy", "pickle"] = true) :
    (∃ x, unpackQ R w = .done x) ∧ ∃ x, junpackQ R w = .done x := by
  constructor
  · cases h : unpackQ R w with
    | done x => exact ⟨x, rfl⟩
    | asks a => exact ((unpackQ_inv (askInv_harmless (R := R) (fun _ _ => decodeAsk_field) (fun _ _ => decode_kind)) w hw).1 a h).elim
  · cases h : junpackQ R w with
    | done x => exact ⟨x, rfl⟩
    | asks a => exact ((junpackQ_inv (askInv_harmless (R := R) (fun _ _ => jdecodeAsk_field) (fun _ _ => jdecode_kind)) w hw).1 a h).elim

/-- **C129 (partial).** A request goes only to an address that is a text of the message, if no value of a map is the
text `pickle` and the receiver serves neither texts nor proxies. Missing: messages with pickles, which may contain
proxies; receivers that serve proxies. -/
theorem C129_addressed_partial (R : RecvEnv) (hR : R.servesPlain) (w : Wire) (hw : w.quiet ["pickle"] = true) (a : Ask) :
    (unpackQ R w = .asks a → w.Mentions a.proxy.addr) ∧ (junpackQ R w = .asks a → w.Mentions a.proxy.addr) := by
  refine ⟨fun h => ?_, fun h => ?_⟩
  · exact (unpackQ_inv (askInv_addressed hR (fun s => w.Mentions s) (fun _ _ => decodeAsk_field) (fun _ _ => decode_kind)) w
      ⟨hw, fun _ h => h⟩).1 a h
  · exact (junpackQ_inv (askInv_addressed hR (fun s => w.Mentions s) (fun _ _ => jdecodeAsk_field) (fun _ _ => jdecode_kind)) w
      ⟨hw, fun _ h => h⟩).1 a h

/-! ## Examples -/

/-- A proxy of a third process. -/
def farProxy : Proxy := ⟨"tcp://c:9", 7, 1, "Obj", []⟩

example : farProxy.foreign recvB := by
  intro a f h
  simp only [recvB, Option.some.injEq, Prod.mk.injEq] at h
  rw [← h.1]; decide

/-- The statement that fails: no message makes its reader ask. -/
example : ¬ ∀ w, ∃ x, unpackQ recvB w = .done x := fun h => by
  obtain ⟨w, _, hw⟩ := C129_negation recvB sendA linkAB.types Refs.init farProxy (by
    intro a f h
    simp only [recvB, Option.some.injEq, Prod.mk.injEq] at h
    rw [← h.1]; decide) rfl (by decide) (by decide) _ (List.mem_cons_self ..)
  obtain ⟨x, hx⟩ := h w
  rw [hx] at hw; cases hw

/-- Whether a reading is the given request. -/
def Reading.isAsk (r : Reading Val) (addr attr : String) (n : Nat) : Bool :=
  match r with
  | .asks a => a.proxy.addr == addr && a.attr == attr && a.args.length == n
  | .done _ => false

/-- A proxy as the shape of an array, and as the address of another proxy. -/
example : (unpackQ recvB (.map [(.str encodeKey, .str "ndarray"), (.str "dtype", .str "float64"),
    (.str "data", .bin [0, 0, 0, 0, 0, 0, 0, 0]), (.str "shape", proxyWire farProxy)])).isAsk "tcp://c:9" "__len__" 0 = true := by
  decide +kernel

example : (unpackQ recvB (.map [(.str encodeKey, .str "proxy"), (.str "rpc_addr", proxyWire farProxy),
    (.str "obj_id", .int 1), (.str "ref_id", .int 1)])).isAsk "tcp://c:9" "__eq__" 1 = true := by
  decide +kernel

/-- Two requests are due; the first decides. -/
example : (unpackQ recvB (.arr [.map [(.str encodeKey, .str "tuple"), (.str "data", proxyWire farProxy)],
    .map [(.str encodeKey, proxyWire { farProxy with addr := "tcp://d:1" })]])).isAsk "tcp://c:9" "__len__" 0 = true := by
  decide +kernel

/-- A proxy that is not used is no request. -/
example : (match unpackQ recvB (.map [(.str "a", proxyWire farProxy)]) with | .done (.ok _) => true | _ => false) = true := by
  decide +kernel

example : recvB.servesPlain := by
  intro a f p v h hf
  simp only [recvB, Option.some.injEq, Prod.mk.injEq] at h
  rw [← h.2] at hf; cases hf

example : (Wire.map [(.str encodeKey, .str "tuple"), (.str "data", proxyWire farProxy)]).quiet ["pickle"] = true := by decide +kernel

example : (Wire.map [(.str "proxy", .arr [.str "proxy"]), (.str encodeKey, .str "none")]).quiet ["proxy", "pickle"] = true := by decide +kernel

/-- `exVal` is read without a request. -/
example : ∃ t' w v', msgpackDumps sendA Refs.init exVal = (t', .ok w) ∧ unpackQ recvB w = .done (.ok v') := by
  have h : (msgpackDumps sendA Refs.init exVal).2.toOption.isSome = true := by decide +kernel
  cases hd : msgpackDumps sendA Refs.init exVal with
  | mk t' x =>
    rw [hd] at h
    cases x with
    | error e => cases h
    | ok w =>
      obtain ⟨v', hv⟩ := C129_written_partial linkAB .init (alive _ _ rfl) exVal_sendable hd
      exact ⟨t', w, v', rfl, hv⟩

namespace Ex

/-! ## Cases that meet the hypotheses -/

theorem farProxy_foreign : farProxy.foreign recvB := by
  intro a f h
  simp only [recvB, Option.some.injEq, Prod.mk.injEq] at h
  rw [← h.1]; decide

theorem recvB_servesPlain : recvB.servesPlain := by
  intro a f p v h hf
  simp only [recvB, Option.some.injEq, Prod.mk.injEq] at h
  rw [← h.2] at hf; cases hf

example := C129_negation_json recvB sendA linkAB.types Refs.init farProxy farProxy_foreign rfl
example := C129_harmless_partial recvB (.map [(.str "proxy", .arr [.str "proxy"]), (.str encodeKey, .str "none")]) (by decide +kernel)
example := (C129_addressed_partial recvB recvB_servesPlain
  (.map [(.str encodeKey, .str "tuple"), (.str "data", proxyWire farProxy)]) (by decide +kernel) ⟨farProxy, "__len__", []⟩).1

theorem dumped {α ε τ} {x : τ × Except ε α} (h : x.2.toOption.isSome = true) : ∃ t w, x = (t, .ok w) := by
  obtain ⟨t, w | w⟩ := x
  · cases h
  · exact ⟨t, w, rfl⟩

example : ∃ t' w v', jsonDumps sendA Refs.init exJVal = (t', .ok w) ∧ junpackQ recvB w = .done (.ok v') := by
  obtain ⟨t', w, hd⟩ := dumped (x := jsonDumps sendA Refs.init exJVal) (by decide +kernel)
  obtain ⟨v', hv⟩ := C129_written_json_partial linkAB .init (alive _ _ rfl) exJVal_sendable hd
  exact ⟨t', w, v', hd, hv⟩

end Ex

end Verif
