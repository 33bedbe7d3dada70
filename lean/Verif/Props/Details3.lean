import Verif.Props.Malformed
import Verif.Props.SerializerExample
import Verif.Props.Logging
/-!
# Details of C18, C96 and C98

Statements about single branches of the model that no theorem about whole runs pins down.
-/
namespace Verif

/-! ## C18 -/

/-- **C18** A dict whose first key is neither a text, a number, a bool nor None is refused with TypeError. -/
theorem C18_bad_key (E : SendEnv) (t : Refs) (k v : Val) (r : List (Val × Val))
    (h1 : ∀ s, k.core ≠ .str s) (h2 : ∀ i, k.core ≠ .int i) (h3 : ∀ f, k.core ≠ .float f) (h4 : ∀ b, k.core ≠ .bool b) (h5 : k.core ≠ .none) :
    jsonDumps E t (.dict ((k, v) :: r)) = (t, .error .typeError) := by
  have hk : jkey E.lib k = .error .typeError := by
    unfold jkey
    split <;> simp_all
  have : ∀ n, jpack E (n + 1) t (.dict ((k, v) :: r)) = (t, .error .typeError) := by
    intro n
    simp only [jpack, Val.core, mapS, jpair, hk]
  exact this _

example (t : Refs) : jsonDumps Ex.sendA t (.dict [(.tuple [.int 1], .int 2)]) = (t, .error .typeError) :=
  C18_bad_key _ _ _ _ _ (by simp [Val.core]) (by simp [Val.core]) (by simp [Val.core]) (by simp [Val.core]) (by simp [Val.core])

/-! ## C98 -/

theorem keyNames_of_map : ∀ {d : List (Val × Val)} {ks : List String}, d.map (·.1) = ks.map .str → keyNames d = some ks
  | [], [], _ => rfl
  | [], _ :: _, h => by cases h
  | _ :: _, [], h => by cases h
  | (_, _) :: d, k :: ks, h => by
    simp only [List.map_cons, List.cons.injEq] at h
    obtain ⟨rfl, h⟩ := h
    simp [keyNames, keyNames_of_map h]

/-- **C98** The dict of a proxy with a key that is no text is refused with TypeError. -/
theorem C98_proxy_key (R : RecvEnv) (d : List (Val × Val)) (ht : lookupStr d "___type_name___" = some (.str "proxy"))
    (hk : ∃ kv ∈ removeStr d "___type_name___", ∀ s, kv.1 ≠ .str s) : decode R d = .error .typeError := by
  have hnone : keyNames (removeStr d "___type_name___") = none := by
    generalize removeStr d "___type_name___" = l at hk
    induction l with
    | nil => obtain ⟨_, h, _⟩ := hk; cases h
    | cons x l ih =>
      obtain ⟨k, v⟩ := x
      obtain ⟨kv, hm, hne⟩ := hk
      cases k with
      | str s =>
        rcases List.mem_cons.mp hm with rfl | hm
        · exact absurd rfl (hne s)
        · simp [keyNames, ih ⟨kv, hm, hne⟩]
      | _ => rfl
  have hp : proxyOfDict (removeStr d "___type_name___") = .error .typeError := by
    unfold proxyOfDict
    rw [hnone]
    split <;> rfl
  simp only [decode, encodeKey, ht, Val.text?, Val.core, decodeProxy, hp]

example : decode Ex.recvB [(.str "___type_name___", .str "proxy"), (.str "rpc_addr", .str "a"), (.str "obj_id", .int 1), (.str "ref_id", .int 2),
    (.bytes [1], .str "red")] = .error .typeError :=
  C98_proxy_key _ _ rfl ⟨(.bytes [1], .str "red"), by simp [removeStr], by simp⟩

/-- **C98** The dict of a proxy with an entry that is neither a field of proxies nor one of their options is refused: with
TypeError if one is `self` or the attributes cannot be iterated, else with KeyError. -/
theorem C98_proxy_extra (R : RecvEnv) (d : List (Val × Val)) (ks : List String) (addr : String) (oid rid : Nat)
    (ht : lookupStr d "___type_name___" = some (.str "proxy"))
    (hk : (removeStr d "___type_name___").map (·.1) = ks.map .str)
    (ha : lookupStr (removeStr d "___type_name___") "rpc_addr" = some (.str addr))
    (ho : lookupStr (removeStr d "___type_name___") "obj_id" = some (.int oid))
    (hr : lookupStr (removeStr d "___type_name___") "ref_id" = some (.int rid))
    (hx : ∃ k ∈ ks, k ∉ ["rpc_addr", "obj_id", "ref_id", "type_str", "attributes", "sync", "timeout", "return_type", "defer_getattr",
      "no_proxy_types", "auto_delete", "safe_print"]) :
    ((∀ v, lookupStr (removeStr d "___type_name___") "attributes" = some v → ∃ l, v = .list l ∨ v = .tuple l) →
      decode R d = .error (if "self" ∈ ks then .typeError else .keyError)) ∧
    (∀ v, lookupStr (removeStr d "___type_name___") "attributes" = some v → (v = .none ∨ (∃ i, v = .int i) ∨ (∃ b, v = .bool b) ∨ ∃ f, v = .float f) →
      decode R d = .error .typeError) := by
  have hk := keyNames_of_map hk
  obtain ⟨k, hk1, hk2⟩ := hx
  have hno : ks.all (fun k => k ∈ proxyParams || k ∈ optionNames) = false := by
    rw [List.all_eq_false]
    refine ⟨k, hk1, ?_⟩
    intro h
    apply hk2
    have : k ∈ proxyParams ++ optionNames := by simpa [List.mem_append] using h
    exact this
  constructor
  · intro hl
    have hp : proxyOfDict (removeStr d encodeKey) = .error (if "self" ∈ ks then .typeError else .keyError) := by
      have : ∃ l, proxyAttrs (removeStr d "___type_name___") = some l := by
        unfold proxyAttrs
        split
        · rename_i v hv
          rcases hl v hv with ⟨l, rfl | rfl⟩ <;> exact ⟨l, rfl⟩
        · exact ⟨_, rfl⟩
      obtain ⟨l, h⟩ := this
      simp only [encodeKey, proxyOfDict, h, hk, ha, ho, hr, Option.bind_some, Val.asStr?, Val.asNat?, hno]
      by_cases h : "self" ∈ ks <;> simp [h]
    simp only [encodeKey] at hp
    simp only [decode, encodeKey, ht, Val.text?, Val.core, decodeProxy, hp]
  · intro v hv hn
    have hp : proxyOfDict (removeStr d encodeKey) = .error .typeError := by
      have : v.items = none := by rcases hn with rfl | ⟨_, rfl⟩ | ⟨_, rfl⟩ | ⟨_, rfl⟩ <;> rfl
      simp only [encodeKey, proxyOfDict, proxyAttrs, hv, this]
    simp only [encodeKey] at hp
    simp only [decode, encodeKey, ht, Val.text?, Val.core, decodeProxy, hp]

example : decode Ex.recvB [(.str "___type_name___", .str "proxy"), (.str "rpc_addr", .str "a"), (.str "obj_id", .int 1), (.str "ref_id", .int 2),
    (.str "color", .str "red")] = .error .keyError :=
  (C98_proxy_extra _ _ ["rpc_addr", "obj_id", "ref_id", "color"] "a" 1 2 rfl rfl rfl rfl rfl ⟨"color", by simp, by decide⟩).1 nofun

example : decode Ex.recvB [(.str "___type_name___", .str "proxy"), (.str "rpc_addr", .str "a"), (.str "obj_id", .int 1), (.str "ref_id", .int 2),
    (.str "color", .str "red"), (.str "attributes", .int 3)] = .error .typeError :=
  (C98_proxy_extra _ _ ["rpc_addr", "obj_id", "ref_id", "color", "attributes"] "a" 1 2 rfl rfl rfl rfl rfl ⟨"color", by simp, by decide⟩).2 _ rfl (.inr (.inl ⟨3, rfl⟩))

example : decode Ex.recvB [(.str "___type_name___", .str "proxy"), (.str "rpc_addr", .str "a"), (.str "obj_id", .int 1), (.str "ref_id", .int 2),
    (.str "color", .str "red"), (.str "self", .int 1)] = .error .typeError :=
  (C98_proxy_extra _ _ ["rpc_addr", "obj_id", "ref_id", "color", "self"] "a" 1 2 rfl rfl rfl rfl rfl ⟨"color", by simp, by decide⟩).1 nofun

/-- **C98** The type text and the attributes of a proxy may be missing: then they are empty. A proxy whose address is not this
side's is handed over as it is. -/
theorem C98_proxy_least (R : RecvEnv) (d : List (Val × Val)) (addr : String) (oid rid : Nat)
    (ht : lookupStr d "___type_name___" = some (.str "proxy"))
    (hd : removeStr d "___type_name___" = [(.str "rpc_addr", .str addr), (.str "obj_id", .int oid), (.str "ref_id", .int rid)])
    (hs : ∀ a u, R.server = some (a, u) → a ≠ addr) : decode R d = .ok (.proxy ⟨addr, oid, rid, "", []⟩) := by
  have hp : proxyOfDict (removeStr d encodeKey) = .ok ⟨addr, oid, rid, "", []⟩ := by
    simp [encodeKey, hd, proxyOfDict, proxyAttrs, keyNames, lookupStr, proxyParams, Val.asStr?, Val.asNat?, asStrs]
  simp only [encodeKey] at hp
  simp only [decode, encodeKey, ht, Val.text?, Val.core, decodeProxy, hp]
  cases hr : R.server with
  | none => rfl
  | some p =>
    obtain ⟨a, u⟩ := p
    have : addr ≠ a := fun h => hs a u hr h.symm
    simp only [this, if_false]

example : decode { Ex.recvB with server := some ("tcp://b", fun _ => .error .keyError) } [(.str "rpc_addr", .str "tcp://a"), (.str "___type_name___", .str "proxy"),
    (.str "obj_id", .int 1), (.str "ref_id", .int 2)] = .ok (.proxy ⟨"tcp://a", 1, 2, "", []⟩) :=
  C98_proxy_least _ _ "tcp://a" 1 2 rfl rfl (by rintro a u h; cases h; decide)

/-! ## C96 -/

theorem logging_outputs_append (s : Logging) (a b : List LoggingEv) : (s.run (a ++ b)).2 = (s.run a).2 ++ ((s.run a).1.run b).2 := by
  induction a generalizing s with
  | nil => rfl
  | cons e es ih =>
    have := ih (s.step e).1
    show (s.step e).2 ++ ((s.step e).1.run (es ++ b)).2 = ((s.step e).2 ++ ((s.step e).1.run es).2) ++ _
    rw [this, List.append_assoc]; rfl

/-- **C96** The same seen over the whole run: the record is logged after everything before, and before everything after it. -/
theorem C96_observed (pre post : List LoggingEv) (i : Int) :
    (Logging.run {} (pre ++ .log [] i :: post)).2 = (Logging.run {} pre).2 ++
      .record [] i (if rootLevel pre ≤ i then (Logging.run {} pre).1.handle [] i else []) ::
        ((Logging.run {} (pre ++ [.log [] i])).1.run post).2 := by
  rw [logging_outputs_append, logging_run_append]
  show _ ++ (((Logging.run {} pre).1.step (.log [] i)).2 ++ (((Logging.run {} pre).1.step (.log [] i)).1.run post).2) = _
  rw [C96_level]
  rfl

/-- **C96** A logger told not to propagate shows records to its own handlers only (to stderr, from warnings on, if it has none). -/
theorem C96_propagate (s : Logging) (n : LogName) (l : PyLogger) (hl : s.look n = some l) (i : Int) :
    (s.step (.propagate n false)).1.handle n i =
      if l.handlers = [] then (if 30 ≤ i then [.stderr] else []) else l.handlers.map .handler := by
  have hl' : s.loggers.get? n = some l := hl
  have hg : s.getLogger n = s := by simp [Logging.getLogger, Dict.has, hl']
  have hs : (s.step (.propagate n false)).1 = { s with loggers := s.loggers.set n { l with propagate := false } } := by
    simp only [Logging.step, hg, Logging.modify, hl']
  have hp : logPrefixes n = n :: ((List.range n.length).reverse.map n.take) := by
    simp [logPrefixes, List.range_succ]
  rw [hs]
  have hc : chainHandlers (Logging.chain { s with loggers := s.loggers.set n { l with propagate := false } } n) = l.handlers := by
    simp only [Logging.chain, hp, List.filterMap_cons, Dict.get?_set_self, chainHandlers]
    simp
  unfold Logging.handle
  rw [hc]
  cases l.handlers <;> simp

example : (Logging.run {} [.addHandler [] 1, .addHandler ["a"] 2]).1.look ["a"] = some { handlers := [.user 2] } := by decide +kernel

example := C96_propagate (Logging.run {} [.addHandler [] 1, .addHandler ["a"] 2]).1 ["a"] { handlers := [.user 2] } (by decide +kernel) 10

end Verif
