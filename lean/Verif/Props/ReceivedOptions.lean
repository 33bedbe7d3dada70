import Verif.Proof.ReceivedOptions
import Verif.Props.Malformed
/-! # C130: the options of proxies read from a message

The full statement — the options of a proxy that arrives are those its reader gives, and the defaults for the rest,
whatever the message says — is false of the code: the entries of a proxy's dict that are no fields become options.
-/
namespace Verif
open Ex

/-- **C130** What a proxy object made from a message looks like, whoever wrote the message: it stands for the proxy that is
read, and each option is the one the reader gives, else the one in the message, else the default. -/
theorem C130_options {popts : Option (Dict String Val)} (hp : ∀ o, popts = some o → o.WF) {l : List (Val × Val)} {q : PObj}
    (h : decodeMakes popts (dictOf l) = some (.ok q)) :
    (∀ R, decode R (dictOf l) = received R q.proxy) ∧
    ∀ k ∈ ["sync", "timeout", "return_type", "defer_getattr", "no_proxy_types", "auto_delete", "safe_print"],
      q.opts.get? k = optionOf popts (dictOf l) k := by
  obtain ⟨⟨v, h1, h2⟩, h3⟩ := decodeMakes_some h
  have hd := dictOf_distinct l
  have hd' : ((removeStr (dictOf l) encodeKey).map (·.1)).Pairwise (fun a b => keyEq a b = false) :=
    hd.sublist ((removeStr_sublist _ _).map _)
  obtain ⟨g1, g2⟩ := ofDict_ok hp hd' h3.symm
  refine ⟨fun R => decode_proxy h1 h2 g1, fun k hk => ?_⟩
  have hk1 : k ∉ proxyParams := by revert k; decide
  have hk2 : encodeKey ≠ k := by revert k; decide
  rw [g2 k hk1]
  simp only [optionOf, lookupStr_removeStr_ne hk2]

/-! ## The full statement is false -/

theorem pack_dict (E : SendEnv) (n : Nat) (t : Refs) (d) : pack E (n + 1 + 1) t (.dict d) = (match mapS (pairS (pack E (n + 1))) t d with
    | (t', .ok m) => (t', Except.ok (Wire.map m))
    | (t', .error e) => (t', .error e)) := rfl

theorem mapS_dressed (f : Refs → Val → Refs × Except Exc Wire) (t) (p : Proxy) (k v wv) (hs : ∀ s, f t (.str s) = (t, .ok (.str s)))
    (ho : f t (.int p.oid) = (t, .ok (.int p.oid))) (hr : f t (.int p.rid) = (t, .ok (.int p.rid))) (hv : f t v = (t, .ok wv)) :
    mapS (pairS f) t (dressed p k v) = (t, .ok [(.str encodeKey, .str "proxy"), (.str "rpc_addr", .str p.addr),
      (.str "obj_id", .int p.oid), (.str "ref_id", .int p.rid), (.str "type_str", .str p.typeStr), (.str k, wv)]) := by
  simp only [dressed, mapS, pairS, hs, ho, hr, hv, encodeKey]

/-- How the dict is written. -/
theorem pack_dressed (E : SendEnv) (n : Nat) (t : Refs) {p : Proxy} (ho : p.oid < 2 ^ 64) (hr : p.rid < 2 ^ 64) {k : String} {v : Val} {wv}
    (hv : pack E (n + 1) t v = (t, .ok wv)) :
    pack E (n + 1 + 1) t (.dict (dressed p k v)) = (t, .ok (.map [(.str encodeKey, .str "proxy"), (.str "rpc_addr", .str p.addr),
      (.str "obj_id", .int p.oid), (.str "ref_id", .int p.rid), (.str "type_str", .str p.typeStr), (.str k, wv)])) := by
  rw [pack_dict, mapS_dressed (pack E (n + 1)) t p k v wv (fun _ => rfl) (pack_nat E n t ho) (pack_nat E n t hr) hv]

/-- **C130.** Every option that the reader does not give itself is up to the message: for every value that is a flag or a
text, any program can send an ordinary dict from which the reader makes a proxy with that option. -/
theorem C130_negation (R : RecvEnv) (E : SendEnv) (t : Refs) (p : Proxy) (ha : p.attrs = []) (ho : p.oid < 2 ^ 64) (hr : p.rid < 2 ^ 64)
    (popts : Option (Dict String Val)) (hw : ∀ o, popts = some o → o.WF)
    (hn : ∀ o, popts = some o → ∀ x ∈ o.map (·.1), x ∈ optionNames)
    {k : String} (hk : k ∈ ["sync", "timeout", "return_type", "defer_getattr", "no_proxy_types", "auto_delete", "safe_print"])
    (hg : ∀ o, popts = some o → o.get? k = none) {v : Val} (hv : (∃ b, v = .bool b) ∨ ∃ s, v = .str s) :
    ∃ w q, msgpackDumps E t (.dict (dressed p k v)) = (t, .ok w) ∧ Makes (unpackM R) popts q w ∧ q.proxy = p ∧ q.opts.get? k = some v := by
  obtain ⟨wv, h1, h2⟩ : ∃ wv, (∀ n, pack E (n + 1) t v = (t, .ok wv)) ∧ unpack R wv = .ok v := by
    rcases hv with ⟨b, rfl⟩ | ⟨s, rfl⟩
    · exact ⟨.bool b, fun _ => rfl, rfl⟩
    · exact ⟨.str s, fun _ => rfl, rfl⟩
  have hwr := pack_dressed E 510 t ho hr (k := k) (h1 510)
  have hread : unpackM R [(.str encodeKey, .str "proxy"), (.str "rpc_addr", .str p.addr), (.str "obj_id", .int p.oid),
      (.str "ref_id", .int p.rid), (.str "type_str", .str p.typeStr), (.str k, wv)] = .ok (dressed p k v) := by
    simp [unpackM, unpack, keyOk, h2, dressed, encodeKey]
  have hdict : dictOf (dressed p k v) = dressed p k v := by
    clear hwr hread hg
    simp only [List.mem_cons, List.not_mem_nil, or_false] at hk
    rcases hk with rfl | rfl | rfl | rfl | rfl | rfl | rfl <;> rfl
  have hof : proxyOfDict (removeStr (dressed p k v) encodeKey) = .ok p := by
    obtain ⟨a, o, r, s, l⟩ := p
    simp only at ha; subst ha
    simp only [List.mem_cons, List.not_mem_nil, or_false] at hk
    rcases hk with rfl | rfl | rfl | rfl | rfl | rfl | rfl <;>
      simp [dressed, removeStr, encodeKey, proxyOfDict, proxyAttrs, asStrs, keyNames, lookupStr, proxyParams, optionNames, Val.asStr?, Val.asNat?]
  have hargs : optionArgs (removeStr (dressed p k v) encodeKey) = [(k, v)] := by
    simp only [List.mem_cons, List.not_mem_nil, or_false] at hk
    rcases hk with rfl | rfl | rfl | rfl | rfl | rfl | rfl <;> rfl
  obtain ⟨q1, hq1⟩ : ∃ q1, PObj.new p [(k, v)] = .ok q1 ∧ q1.opts.map (·.1) = optionNames := by
    simp only [List.mem_cons, List.not_mem_nil, or_false] at hk
    rcases hk with rfl | rfl | rfl | rfl | rfl | rfl | rfl <;> exact ⟨_, rfl, rfl⟩
  obtain ⟨q, hq⟩ : ∃ q, PObj.ofDict popts (removeStr (dressed p k v) encodeKey) = .ok q := by
    unfold PObj.ofDict
    rw [hof]
    simp only [hargs, hq1.1]
    cases popts with
    | none => exact ⟨q1, rfl⟩
    | some o =>
      have hself : o.has "self" = false := by
        cases hx : o.has "self" with
        | false => rfl
        | true => exact absurd (hn o rfl _ ((Dict.has_iff _ _).1 hx)) (by decide)
      rcases C45_all_or_nothing_partial (p := q1) o (hw o rfl) hself with ⟨q, h1, _⟩ | ⟨_, x, hx, hx'⟩
      · exact ⟨q, by simp only [h1]⟩
      · exact absurd (hn o rfl x hx) (hq1.2 ▸ hx')
  have hm : decodeMakes popts (dictOf (dressed p k v)) = some (.ok q) := by
    rw [hdict]
    have : (lookupStr (dressed p k v) encodeKey).bind Val.text? = some "proxy" := by
      simp [dressed, lookupStr, encodeKey, Val.text?, Val.core]
    unfold decodeMakes
    rw [this]
    simp only [hq]
  obtain ⟨c1, c2⟩ := C130_options hw hm
  refine ⟨_, q, ?_, .here hread hm, ?_, ?_⟩
  · exact hwr
  · have hd'' : ((removeStr (dressed p k v) encodeKey).map (·.1)).Pairwise (fun a b => keyEq a b = false) := by
      have := dictOf_distinct (dressed p k v)
      rw [hdict] at this
      exact this.sublist ((removeStr_sublist _ _).map _)
    have := (ofDict_ok hw hd'' hq).1
    rw [hof] at this
    exact (Except.ok.inj this).symm
  · rw [c2 k hk, hdict]
    have hl : lookupStr (dressed p k v) k = some v := by
      simp only [List.mem_cons, List.not_mem_nil, or_false] at hk
      rcases hk with rfl | rfl | rfl | rfl | rfl | rfl | rfl <;> rfl
    unfold optionOf
    rw [hl]
    cases popts with
    | none => rfl
    | some o => simp only [Option.bind_some, hg o rfl]

/-- **C130.** So a message can make its reader send a delete request for whatever it names, once the proxy is collected,
unless the reader itself gives the option `auto_delete`. -/
theorem C130_negation_delete (R : RecvEnv) (E : SendEnv) (t : Refs) (p : Proxy) (ha : p.attrs = []) (ho : p.oid < 2 ^ 64) (hr : p.rid < 2 ^ 64)
    (popts : Option (Dict String Val)) (hw : ∀ o, popts = some o → o.WF)
    (hn : ∀ o, popts = some o → ∀ x ∈ o.map (·.1), x ∈ optionNames) (hg : ∀ o, popts = some o → o.get? "auto_delete" = none) :
    ∃ w q, msgpackDumps E t (.dict (dressed p "auto_delete" (.bool true))) = (t, .ok w) ∧ Makes (unpackM R) popts q w ∧
      q.collected = [("delete", some (.dict [(.str "obj_id", .int p.oid), (.str "ref_id", .int p.rid)]))] := by
  obtain ⟨w, q, h1, h2, h3, h4⟩ := C130_negation R E t p ha ho hr popts hw hn (by simp : "auto_delete" ∈ _) hg (v := .bool true) (.inl ⟨_, rfl⟩)
  refine ⟨w, q, h1, h2, ?_⟩
  unfold PObj.collected
  rw [(C43_flag q "auto_delete").2 h4, if_pos rfl, h3]
  rfl

/-- **C130.** And it can make printing the proxy ask the process it names, unless the reader itself gives the option
`safe_print`. (A client prints every message it receives, C111.) -/
theorem C130_negation_print (R : RecvEnv) (E : SendEnv) (t : Refs) (p : Proxy) (ha : p.attrs = []) (ho : p.oid < 2 ^ 64) (hr : p.rid < 2 ^ 64)
    (popts : Option (Dict String Val)) (hw : ∀ o, popts = some o → o.WF)
    (hn : ∀ o, popts = some o → ∀ x ∈ o.map (·.1), x ∈ optionNames) (hg : ∀ o, popts = some o → o.get? "safe_print" = none) :
    ∃ w q, msgpackDumps E t (.dict (dressed p "safe_print" (.bool false))) = (t, .ok w) ∧ Makes (unpackM R) popts q w ∧
      q.repr = q.askText "__repr__" := by
  obtain ⟨w, q, h1, h2, h3, h4⟩ := C130_negation R E t p ha ho hr popts hw hn (by simp : "safe_print" ∈ _) hg (v := .bool false) (.inl ⟨_, rfl⟩)
  refine ⟨w, q, h1, h2, ?_⟩
  have : q.on "safe_print" = false := by
    cases hx : q.on "safe_print" with
    | false => rfl
    | true => rw [(C43_flag q "safe_print").1 hx] at h4; cases h4
  unfold PObj.repr
  rw [this]
  rfl

/-! ## What holds -/

/-- **C130 (partial).** No message, whoever wrote it, changes an option that the reader gives itself. Missing: options the
reader does not give (`C130_negation`). -/
theorem C130_given_partial {popts : Option (Dict String Val)} (hp : ∀ o, popts = some o → o.WF) {readMap w} {q : PObj}
    (h : Makes readMap popts q w) {k : String}
    (hk : k ∈ ["sync", "timeout", "return_type", "defer_getattr", "no_proxy_types", "auto_delete", "safe_print"])
    {v : Val} (hv : popts.bind (·.get? k) = some v) : q.opts.get? k = some v := by
  obtain ⟨m, d, _, _, h2⟩ := makes_inside h
  rw [(C130_options hp h2).2 k hk, optionOf, hv]

/-- **C130 (partial).** A message that `dumps` wrote for a value in which no dict uses the reserved key makes only proxies
whose options are the reader's and the defaults (C103), whatever options the sender's proxies have. Missing: messages
written by something else, and dicts that use the reserved key (`C130_negation`). -/
theorem C130_written_partial (E : SendEnv) (R : RecvEnv) {t t' : Refs} {v : Val} (hv : v.tagFree strName = true) {w}
    (hd : msgpackDumps E t v = (t', .ok w)) {popts q} (hm : Makes (unpackM R) popts q w) :
    ∃ p, (match popts with | none => PObj.new p [] | some o => PObj.received p o) = .ok q := by
  obtain ⟨m, d, h1, h2, h3⟩ := makes_inside hm
  have hc := pack_clean E _ v w hv ⟨t, t', hd⟩ m h1
  have hkeys : ∀ e ∈ m, (∃ s, e.1 = Wire.str s) ∨ ∃ b, e.1 = .bin b := by
    rcases hc with hc | ⟨s, r, rfl, _, hr⟩ | ⟨a, b, c, x, y, rfl⟩
    · intro e he
      rcases hc e he with ⟨s, hs, _⟩ | hb
      · exact .inl ⟨s, hs⟩
      · exact .inr hb
    · intro e he
      rcases List.mem_cons.1 he with rfl | he
      · exact .inl ⟨_, rfl⟩
      · obtain ⟨k, hk, _⟩ := hr e he; exact .inl ⟨k, hk⟩
    · intro e he
      simp only [List.mem_cons, List.not_mem_nil, or_false] at he
      rcases he with rfl | rfl | rfl | rfl | rfl | rfl <;> exact .inl ⟨_, rfl⟩
  refine clean_makes hc (P := fun w v => unpack R w = .ok v) ?_ (unpackM_pairs hkeys h2) h3
  intro s v hs
  simp only [unpack, Except.ok.injEq] at hs
  exact hs.symm

/-- **C130 (partial).** The same for JSON. -/
theorem C130_written_json_partial (E : SendEnv) (R : RecvEnv) {t t' : Refs} {v : Val} (hv : v.tagFree (jsonName E.lib) = true) {w}
    (hd : jsonDumps E t v = (t', .ok w)) {popts q} (hm : Makes (junpackM R) popts q w) :
    ∃ p, (match popts with | none => PObj.new p [] | some o => PObj.received p o) = .ok q := by
  obtain ⟨m, d, h1, h2, h3⟩ := makes_inside hm
  have hc := jpack_clean E _ v w hv ⟨t, t', hd⟩ m h1
  refine clean_makes hc (P := fun w v => junpack R w = .ok v) ?_ (junpackM_pairs h2) h3
  intro s v hs
  simp only [junpack, Except.ok.injEq] at hs
  exact hs.symm

/-! ## Examples -/

/-- The options of a client that defers nothing. -/
def eagerOpts : Dict String Val := [("defer_getattr", .bool false)]

example : eagerOpts.WF ∧ (∀ x ∈ eagerOpts.map (·.1), x ∈ optionNames) ∧ eagerOpts.get? "auto_delete" = none := by
  refine ⟨?_, by decide, rfl⟩
  show (["defer_getattr"] : List String).Nodup
  decide

/-- A reader that collects the proxy deletes reference 1 of object 7. -/
example : ∃ q, decodeMakes (some eagerOpts) (dictOf (dressed ⟨"tcp://c:9", 7, 1, "Obj", []⟩ "auto_delete" (.bool true))) = some (.ok q) ∧
    q.collected.length = 1 ∧ q.on "defer_getattr" = false := ⟨_, rfl, rfl, rfl⟩

/-- The reader's own option prevails. -/
example : ∃ q, decodeMakes (some [("auto_delete", .bool false)]) (dictOf (dressed ⟨"tcp://c:9", 7, 1, "Obj", []⟩ "auto_delete" (.bool true))) = some (.ok q) ∧
    q.collected.length = 0 := ⟨_, rfl, rfl⟩

/-- A value with a proxy in a tuple in a dict. -/
example : (Val.dict [(.str "a", .tuple [.int 1, .proxy ⟨"tcp://c:9", 7, 1, "Obj", []⟩]), (.bytes [1], .none)]).tagFree strName = true := by decide +kernel

/-- Its message makes the proxy. -/
example : ∃ w q, msgpackDumps sendA Refs.init (.dict [(.str "a", .proxy ⟨"tcp://c:9", 7, 1, "Obj", []⟩)]) = (Refs.init, .ok w) ∧
    Makes (unpackM recvB) (some eagerOpts) q w ∧ q.proxy.oid = 7 := by
  obtain ⟨q, hq⟩ : ∃ q, decodeMakes (some eagerOpts) (dictOf [(.str encodeKey, .str "proxy"), (.str "rpc_addr", .str "tcp://c:9"),
      (.str "obj_id", .int 7), (.str "ref_id", .int 1), (.str "type_str", .str "Obj"), (.str "attributes", .tuple [])]) = some (.ok q) ∧
      q.proxy.oid = 7 := ⟨_, rfl, rfl⟩
  exact ⟨.map [(.str "a", proxyWire ⟨"tcp://c:9", 7, 1, "Obj", []⟩)], q, rfl, .value (.head _) (.here rfl hq.1), hq.2⟩

namespace Ex

/-! ## The theorems on these cases -/

theorem eagerOpts_wf : eagerOpts.WF := by
  show (["defer_getattr"] : List String).Nodup
  decide
/-- A proxy of another process. -/
def obj7 : Proxy := ⟨"tcp://c:9", 7, 1, "Obj", []⟩
example := C130_options (popts := some eagerOpts) (by intro o h; cases h; exact eagerOpts_wf) (l := dressed obj7 "auto_delete" (.bool true)) rfl
example := C130_negation recvB sendA Refs.init obj7 rfl (by decide) (by decide) (some eagerOpts) (by intro o h; cases h; exact eagerOpts_wf) (by intro o h; cases h; decide)
  (k := "sync") (by simp) (by intro o h; cases h; rfl) (v := .str "off") (.inr ⟨_, rfl⟩)
example := C130_negation_delete recvB sendA Refs.init obj7 rfl (by decide) (by decide) (some eagerOpts) (by intro o h; cases h; exact eagerOpts_wf) (by intro o h; cases h; decide)
  (by intro o h; cases h; rfl)
example := C130_negation_print recvB sendA Refs.init obj7 rfl (by decide) (by decide) (some eagerOpts) (by intro o h; cases h; exact eagerOpts_wf) (by intro o h; cases h; decide)
  (by intro o h; cases h; rfl)
/-- The reader's own option prevails. -/
example : ∃ q w, Makes (unpackM recvB) (some eagerOpts) q w ∧ q.opts.get? "defer_getattr" = some (.bool false) ∧ q.opts.get? "sync" = some (.str "off") := by
  obtain ⟨w, q, -, hm, -, h⟩ := C130_negation recvB sendA Refs.init obj7 rfl (by decide) (by decide) (some eagerOpts) (by intro o h; cases h; exact eagerOpts_wf)
    (by intro o h; cases h; decide) (k := "sync") (by simp) (by intro o h; cases h; rfl) (v := .str "off") (.inr ⟨_, rfl⟩)
  exact ⟨q, w, hm, C130_given_partial (by intro o h; cases h; exact eagerOpts_wf) hm (by simp) rfl, h⟩
/-- The message of a dict with a proxy. -/
example : ∃ w q, msgpackDumps sendA Refs.init (.dict [(.str "a", .proxy obj7)]) = (Refs.init, .ok w) ∧
    Makes (unpackM recvB) (some eagerOpts) q w ∧ ∃ p, PObj.received p eagerOpts = .ok q := by
  obtain ⟨q, hq⟩ : ∃ q, decodeMakes (some eagerOpts) (dictOf [(.str encodeKey, .str "proxy"), (.str "rpc_addr", .str "tcp://c:9"),
      (.str "obj_id", .int 7), (.str "ref_id", .int 1), (.str "type_str", .str "Obj"), (.str "attributes", .tuple [])]) = some (.ok q) := ⟨_, rfl⟩
  have hd : msgpackDumps sendA Refs.init (.dict [(.str "a", .proxy obj7)]) = (Refs.init, .ok (.map [(.str "a", proxyWire obj7)])) := rfl
  have hm : Makes (unpackM recvB) (some eagerOpts) q (.map [(.str "a", proxyWire obj7)]) := .value (.head _) (.here rfl hq)
  exact ⟨_, q, hd, hm, C130_written_partial sendA recvB (by decide +kernel) hd hm⟩
example : ∃ w q, jsonDumps sendA Refs.init (.dict [(.int 1, .proxy obj7)]) = (Refs.init, .ok w) ∧
    Makes (junpackM recvB) (some eagerOpts) q w ∧ ∃ p, PObj.received p eagerOpts = .ok q := by
  obtain ⟨q, hq⟩ : ∃ q, decodeMakes (some eagerOpts) (dictOf [(.str encodeKey, .str "proxy"), (.str "rpc_addr", .str "tcp://c:9"),
      (.str "obj_id", .int 7), (.str "ref_id", .int 1), (.str "type_str", .str "Obj"), (.str "attributes", .list [])]) = some (.ok q) := ⟨_, rfl⟩
  obtain ⟨w, m, hd, hw, hm⟩ : ∃ w m, jsonDumps sendA Refs.init (.dict [(.int 1, .proxy obj7)]) = (Refs.init, .ok w) ∧ w = .map [(.str "1", .map m)] ∧ junpackM recvB m = .ok [(.str encodeKey, .str "proxy"), (.str "rpc_addr", .str "tcp://c:9"),
      (.str "obj_id", .int 7), (.str "ref_id", .int 1), (.str "type_str", .str "Obj"), (.str "attributes", .list [])] := ⟨_, _, rfl, rfl, rfl⟩
  have hm : Makes (junpackM recvB) (some eagerOpts) q w := by rw [hw]; exact .value (.head _) (.here hm hq)
  exact ⟨w, q, hd, hm, C130_written_json_partial sendA recvB (by decide +kernel) hd hm⟩

end Ex

end Verif
