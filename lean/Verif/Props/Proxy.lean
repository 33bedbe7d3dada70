import Verif.Proof.Proxy
import Verif.Props.ServerActions
/-!
# C43–C47: what a proxy does
-/
namespace Verif

/-! ## C43: attribute chains -/

theorem attrChain_append {ga : GetAttr} {v x : Val} {b : List String} : ∀ {a : List String},
    AttrChain ga v (a ++ b) x ↔ ∃ y, AttrChain ga v a y ∧ AttrChain ga y b x := by
  intro a
  induction a generalizing v with
  | nil => exact ⟨fun h => ⟨v, .nil v, h⟩, fun ⟨y, h1, h2⟩ => by cases h1; exact h2⟩
  | cons c a ih =>
    constructor
    · intro h
      cases h with
      | cons h1 h2 =>
        obtain ⟨y, h3, h4⟩ := ih.1 h2
        exact ⟨y, .cons h1 h3, h4⟩
    · rintro ⟨y, h1, h2⟩
      cases h1 with
      | cons h3 h4 => exact .cons h3 (ih.2 ⟨y, h4, h2⟩)

theorem getattrs_append {ga : GetAttr} (b : List String) : ∀ (a : List String) (v : Val),
    getattrs ga v (a ++ b) = match getattrs ga v a with | .ok y => getattrs ga y b | .error e => .error e
  | [], v => rfl
  | c :: a, v => by
    simp only [List.cons_append, getattrs]
    split
    · exact getattrs_append b a _
    · rfl

/-- What the server does with a proxy is what `Resolves` says. -/
theorem unwrap_iff {view ga} {t : Refs} {p : Proxy} {r} : t.unwrap view ga p = r ↔ Resolves view ga t p r := by
  unfold Refs.unwrap
  constructor
  · intro h
    cases hl : t.lookup p.oid with
    | error e =>
      rw [hl] at h; simp only at h; subst h
      have he : e = .keyError := by
        unfold Refs.lookup at hl
        split at hl <;> cases hl; rfl
      subst he
      exact .unknown (by intro o ho; rw [hl] at ho; cases ho)
    | ok o =>
      rw [hl] at h; simp only at h; subst h
      cases hg : getattrs ga (view o) p.attrs with
      | ok x => exact .ok hl (getattrs_ok_iff.1 hg)
      | error e => exact .raises hl (getattrs_error_iff.1 hg)
  · intro h
    cases h with
    | unknown h =>
      cases hl : t.lookup p.oid with
      | ok o => exact absurd hl (h o)
      | error e =>
        unfold Refs.lookup at hl
        split at hl <;> cases hl; rfl
    | ok h1 h2 => rw [h1]; exact getattrs_ok_iff.2 h2
    | raises h1 h2 => rw [h1]; exact getattrs_error_iff.2 h2

/-- **C43, partial.** A chain of attribute accesses on a proxy gives a proxy for the chain, with the same options, without contacting the
server. Missing: names the proxy object has itself (`C43_fails`); option `defer_getattr` (`C43_undeferred`). -/
theorem C43_no_request_partial {p : PObj} (hp : Made p) (hd : p.on "defer_getattr" = true) : ∀ {names : List String},
    (∀ a ∈ names, a ∉ ownNames) →
    p.getattrs names = .deferred ⟨{ p.proxy with attrs := p.proxy.attrs ++ names }, p.opts⟩ := by
  intro names
  induction names generalizing p with
  | nil => intro _; simp [PObj.getattrs]
  | cons a as ih =>
    intro h
    have ha : p.getattr a = .deferred ⟨{ p.proxy with attrs := p.proxy.attrs ++ [a] }, p.opts⟩ := by
      unfold PObj.getattr
      rw [if_neg (h a (by simp)), deferredAttr_eq hp.ok]
      simp [hd]
    unfold PObj.getattrs
    rw [ha]
    simp only
    rw [ih (hp.derive (deferredAttr_eq hp.ok a)) hd (fun b hb => h b (by simp [hb]))]
    simp

/-- **C43, partial.** The proxy `p.a1. … .an` resolves to `getattr(… getattr(v, a1) …, an)` for the object `v` that `p` resolves to. -/
theorem C43_resolves_partial {p : PObj} (hp : Made p) (hd : p.on "defer_getattr" = true) {names : List String}
    (hn : ∀ a ∈ names, a ∉ ownNames) {view ga} {t : Refs} {v : Val} (hv : t.unwrap view ga p.proxy = .ok v) :
    ∃ q, p.getattrs names = .deferred q ∧
      (∀ x, t.unwrap view ga q.proxy = .ok x ↔ AttrChain ga v names x) ∧
      (∀ e, t.unwrap view ga q.proxy = .error e ↔ AttrRaises ga v names e) := by
  refine ⟨_, C43_no_request_partial hp hd hn, ?_⟩
  have hq : t.unwrap view ga { p.proxy with attrs := p.proxy.attrs ++ names } = getattrs ga v names := by
    unfold Refs.unwrap at hv ⊢
    split at hv
    · rename_i o ho
      simp only [ho]
      rw [getattrs_append, hv]
    · cases hv
  exact ⟨fun x => by rw [hq]; exact getattrs_ok_iff, fun e => by rw [hq]; exact getattrs_error_iff⟩

/-- **C43, partial.** If `p` itself does not resolve, `p.a1. … .an` fails in the same way. -/
theorem C43_unresolved_partial {p : PObj} (hp : Made p) (hd : p.on "defer_getattr" = true) {names : List String}
    (hn : ∀ a ∈ names, a ∉ ownNames) {view ga} {t : Refs} {e} (hv : t.unwrap view ga p.proxy = .error e) :
    ∃ q, p.getattrs names = .deferred q ∧ t.unwrap view ga q.proxy = .error e := by
  refine ⟨_, C43_no_request_partial hp hd hn, ?_⟩
  unfold Refs.unwrap at hv ⊢
  split at hv
  · rename_i o ho
    simp only [ho]
    rw [getattrs_append, hv]
  · rename_i e' he
    simp only [he]; exact hv

/-- **C43** With option `defer_getattr` off, each access asks the server for the attribute at once. -/
theorem C43_undeferred {p : PObj} (hp : Made p) (hd : p.on "defer_getattr" = false) {a : String} (ha : a ∉ ownNames) :
    p.getattr a = .asks ⟨("get_obj", some (.dict [(.str "obj", .proxy { p.proxy with attrs := p.proxy.attrs ++ [a] })])),
      .str "sync", .str "auto", .int 10⟩ := by
  unfold PObj.getattr
  rw [if_neg ha, deferredAttr_eq hp.ok]
  simp [hd, PObj.undefer, getObjReq]

namespace Ex

/-- A proxy with default options to object 3 of server "tcp://s:1". -/
def prox : PObj := ⟨⟨"tcp://s:1", 3, 5, "type", []⟩, defaultOptions⟩
theorem prox_made : Made prox := .new (x := ⟨"tcp://s:1", 3, 5, "type", []⟩) (kw := []) rfl

/-- **C43 fails** for a name the proxy object has itself: `p._client` is the proxy's own method, whatever the remote object has. -/
theorem C43_fails : ∃ p a, Made p ∧ p.on "defer_getattr" = true ∧ ∀ q, p.getattrs [a] ≠ .deferred q :=
  ⟨prox, "_client", prox_made, rfl, fun q h => by
    have : prox.getattrs ["_client"] = .own "_client" := rfl
    rw [this] at h; cases h⟩

example : ∃ q, prox.getattrs ["stdout", "write"] = .deferred q ∧ q.proxy.attrs = ["stdout", "write"] :=
  ⟨_, C43_no_request_partial prox_made rfl (by decide +kernel), rfl⟩

/-- Attributes of the example: object 1 has `stdout`, a string with `write`. -/
def exGa : GetAttr
  | .int 1, "stdout" => .ok (.str "out")
  | .str "out", "write" => .ok (.int 7)
  | _, _ => .error .attributeError

example : AttrChain exGa (.int 1) ["stdout", "write"] (.int 7) := .cons rfl (.cons rfl (.nil _))
example : AttrRaises exGa (.int 1) ["stdout", "nope", "write"] .attributeError := ⟨["stdout"], "nope", ["write"], .str "out", rfl, .cons rfl (.nil _), rfl⟩
example : Refs.unwrap (fun _ => .int 1) exGa ⟨4, 6, [(3, (9, [5]))], [(0, 3)]⟩ prox.proxy = .ok (.int 1) := rfl

end Ex

/-! ## C44: equality and hash -/

/-- **C44, partial.** If two proxies compare without contacting the server, they are equal, and they have the same hash if they have the
same attributes. Missing: proxies of different attributes (`C44_fails`). -/
theorem C44_partial {p q : PObj} {v} (h : p.op "__eq__" [.proxy q.proxy] = some (.value v)) :
    v = .bool true ∧ p.proxy.addr = q.proxy.addr ∧ p.proxy.oid = q.proxy.oid ∧
    (p.proxy.attrs = q.proxy.attrs → ∀ hash, p.hash hash = q.hash hash) := by
  have ht : opTable.find? (·.1 = "__eq__") = some ("__eq__", "__eq__") := by decide +kernel
  unfold PObj.op at h
  rw [ht] at h
  simp only [if_true, PObj.sameObject] at h
  split at h
  · simp at h
  · rename_i hb
    simp only [Except.ok.injEq, Bool.and_eq_true, decide_eq_true_eq] at hb
    simp only [Option.some.injEq, OpResult.value.injEq] at h
    refine ⟨h.symm, hb.1.symm, hb.2.symm, ?_⟩
    intro ha hash
    simp [PObj.hash, hb.1, hb.2, ha]
  · unfold OpResult.of at h
    split at h <;> cases h

/-- **C44** Conversely two proxies of the same object always compare equal without contacting the server. -/
theorem C44_equal {p q : PObj} (h1 : p.proxy.addr = q.proxy.addr) (h2 : p.proxy.oid = q.proxy.oid) :
    p.op "__eq__" [.proxy q.proxy] = some (.value (.bool true)) := by
  have ht : opTable.find? (·.1 = "__eq__") = some ("__eq__", "__eq__") := by decide +kernel
  unfold PObj.op
  rw [ht]
  simp [PObj.sameObject, h1, h2]

namespace Ex

/-- **C44 fails.** `p.x == p.y` is `True` without contacting the server, but for a hash that tells tuples apart the hashes differ. -/
theorem C44_fails : ∃ p q : PObj, Made p ∧ Made q ∧ p.op "__eq__" [.proxy q.proxy] = some (.value (.bool true)) ∧
    ∀ hash : String × Nat × List String → Int, (∀ a b, hash a = hash b → a = b) → p.hash hash ≠ q.hash hash := by
  refine ⟨⟨{ prox.proxy with attrs := ["x"] }, defaultOptions⟩, ⟨{ prox.proxy with attrs := ["y"] }, defaultOptions⟩,
    prox_made.derive (deferredAttr_eq prox_made.ok "x"), prox_made.derive (deferredAttr_eq prox_made.ok "y"), C44_equal rfl rfl, ?_⟩
  intro hash hi he
  have := hi _ _ he
  revert this; decide

end Ex

/-! ## C45: options -/

/-- **C45, partial.** `_set_proxy_options` either sets exactly the given options, or raises KeyError because one of them is unknown, and then
changes nothing. Missing: a keyword `self` (`C45_fails`). -/
theorem C45_all_or_nothing_partial {p : PObj} (kw : Dict String Val) (hw : kw.WF) (hs : kw.has "self" = false) :
    (∃ q, p.setOptions kw = (q, .ok ()) ∧ q.proxy = p.proxy ∧ (∀ k ∈ kw.map (·.1), k ∈ p.opts.map (·.1)) ∧
      ∀ k, q.opts.get? k = match kw.get? k with | some v => some v | none => p.opts.get? k) ∨
    (p.setOptions kw = (p, .error .keyError) ∧ ∃ k ∈ kw.map (·.1), k ∉ p.opts.map (·.1)) := by
  unfold PObj.setOptions
  rw [hs]
  simp only [Bool.false_eq_true, if_false]
  cases hc : checkOptions p.opts kw with
  | ok u =>
    refine .inl ⟨_, rfl, rfl, ?_, fun k => ?_⟩
    · intro k hk
      obtain ⟨e, he, rfl⟩ := List.mem_map.1 hk
      exact (Dict.has_iff _ _).1 (checkOptions_ok.1 hc e he)
    · refine (Dict.get?_update k kw p.opts hw).trans ?_
      cases kw.get? k <;> rfl
  | error e =>
    obtain ⟨rfl, x, hx, hf⟩ := checkOptions_error hc
    refine .inr ⟨rfl, x.1, List.mem_map_of_mem (f := (·.1)) hx, ?_⟩
    intro hm
    rw [(Dict.has_iff _ _).2 hm] at hf; cases hf

/-- **C45** Whatever it raises, nothing changes. -/
theorem C45_nothing {p q : PObj} {kw e} (h : p.setOptions kw = (q, .error e)) : q = p := by
  unfold PObj.setOptions at h
  split at h
  · cases h; rfl
  · split at h <;> cases h; rfl

/-- **C45** Every proxy has exactly the known options, in every situation. -/
theorem C45_known {p : PObj} (hp : Made p) : p.opts.map (·.1) = ["sync", "timeout", "return_type", "defer_getattr", "no_proxy_types", "auto_delete", "safe_print"] := hp.ok

namespace Ex

/-- **C45 fails** in the class of the exception: an option `self` raises TypeError. -/
theorem C45_fails : prox.setOptions [("self", .none)] = (prox, .error .typeError) := rfl

example : ((prox.setOptions [("sync", .str "async"), ("timeout", .int 3)]).1.opts.get? "timeout").isSome = true := by decide +kernel
example : prox.setOptions [("sync", .str "async"), ("nope", .int 3)] = (prox, .error .keyError) := rfl
example : Dict.WF [("sync", Val.str "async"), ("timeout", .int 3)] := show (["sync", "timeout"] : List String).Nodup by decide

end Ex

/-! ## C46: calls -/

/-- **C46, partial.** A call asks for a call of the object of the proxy with exactly the positional arguments and the keyword arguments other
than the three call options; these override the settings of the proxy. Missing: a keyword `self` (`C46_fails`). -/
theorem C46_call_partial {p : PObj} (hp : Made p) (args : List Val) {kw : Dict String Val} (hs : kw.has "self" = false) :
    ∃ s r t, p.opts.get? "sync" = some s ∧ p.opts.get? "return_type" = some r ∧ p.opts.get? "timeout" = some t ∧
      p.call args kw = .ok ⟨("call_obj", some (.dict [(.str "obj", .proxy p.proxy), (.str "args", .tuple args),
          (.str "kwargs", .dict ((remoteKw kw).map fun e => (.str e.1, e.2)))])),
        (kw.get? "_sync").getD s, (kw.get? "_return_type").getD r, (kw.get? "_timeout").getD t⟩ := by
  have hk : ∀ k ∈ optionNames, ∃ v, p.opts.get? k = some v := by
    intro k hk
    rw [← hp.ok] at hk
    exact Dict.mem_keys_iff.1 hk
  obtain ⟨s, h1⟩ := hk "sync" (by decide)
  obtain ⟨r, h2⟩ := hk "return_type" (by decide)
  obtain ⟨t, h3⟩ := hk "timeout" (by decide)
  refine ⟨s, r, t, h1, h2, h3, ?_⟩
  have hf : ((kw.erase "_sync").erase "_return_type").erase "_timeout" = remoteKw kw := by
    simp only [Dict.erase_eq_filter, List.filter_filter, remoteKw]
    congr 1
    funext e
    by_cases ha : e.1 = "_sync" <;> by_cases hb : e.1 = "_return_type" <;> by_cases hc : e.1 = "_timeout" <;> simp [ha, hb, hc]
  unfold PObj.call
  rw [hs, h1, h2, h3]
  simp only [Bool.false_eq_true, if_false, popDefault, callObjReq, kwVal, hf, Dict.get?_erase]
  simp

/-- **C46, partial.** What the server invokes: the object of the proxy, with these arguments, as the serializer carries them. -/
theorem C46_invokes_partial {p : PObj} (hp : Made p) {args : List Val} {kw : Dict String Val} (hs : kw.has "self" = false)
    {r a o} (hc : p.call args kw = .ok r) (ho : r.req = (a, some o))
    {ser : Ser} {L tys P d} (harr : ser.Arrives L tys P o (.dict d))
    {H s parts c k rt st} (hask : Asks H s parts c k a rt st (.dict d)) :
    ∃ f args' kw' task, P (.proxy p.proxy) f ∧ ser.Arrives L tys P (.tuple args) args' ∧
      ser.Arrives L tys P (.dict ((remoteKw kw).map fun e => (.str e.1, e.2))) (.dict kw') ∧
      s.step (.recv H parts) =
        ({ s with clients := s.clients.set c st, stack := ⟨c, k, rt, task⟩ :: s.stack },
         [.accept c k "call_obj" st, .invoke f args' (.dict kw')]) ∧ task.Transparent := by
  obtain ⟨_, _, _, _, _, _, h⟩ := C46_call_partial hp args hs
  rw [h] at hc
  cases hc
  simp only [Prod.mk.injEq, Option.some.injEq] at ho
  obtain ⟨rfl, rfl⟩ := ho
  cases ser with
  | msgpack =>
    simp only [Ser.Arrives, Arrives, ArrivesD, Val.dict.injEq] at harr
    obtain ⟨d', rfl, f, _, rfl, hf, args', _, rfl, hargs, kw', _, rfl, hkw, rfl⟩ := harr
    obtain ⟨l, rfl, hargs⟩ := hargs
    obtain ⟨kw', rfl, hkw⟩ := hkw
    obtain ⟨task, h1, h2⟩ := C71_call (f := f) (args := .tuple l) (kw := kw') hask (by simp [lookupStr]) (by simp [lookupStr]) (by simp [lookupStr])
    exact ⟨f, _, kw', task, hf, ⟨l, rfl, hargs⟩, ⟨kw', rfl, hkw⟩, h1, h2 (.inl ⟨l, .inr rfl⟩)⟩
  | json =>
    simp only [Ser.Arrives, JArrives, JArrivesD, Val.dict.injEq] at harr
    obtain ⟨d', rfl, k1, f, _, rfl, hk1, hf, k2, args', _, rfl, hk2, hargs, k3, kw', _, rfl, hk3, hkw, rfl⟩ := harr
    cases hk1; cases hk2; cases hk3
    obtain ⟨l, rfl, hargs⟩ := hargs
    obtain ⟨kw', rfl, hkw⟩ := hkw
    obtain ⟨task, h1, h2⟩ := C71_call (f := f) (args := .list l) (kw := kw') hask (by simp [lookupStr]) (by simp [lookupStr]) (by simp [lookupStr])
    exact ⟨f, _, kw', task, hf, ⟨l, rfl, hargs⟩, ⟨kw', rfl, hkw⟩, h1, h2 (.inl ⟨l, .inl rfl⟩)⟩

namespace Ex

/-- **C46 fails** for a keyword argument `self`, which cannot be passed. -/
theorem C46_fails (args : List Val) (kw : Dict String Val) (h : kw.has "self" = true) (p : PObj) : p.call args kw = .error .typeError := by
  simp [PObj.call, h]

example : (match prox.call [.int 1] [("x", .int 2), ("_timeout", .int 3), ("sync", .int 4)] with
    | .ok ⟨("call_obj", some (.dict [_, (_, .tuple [.int 1]), (.str "kwargs", .dict [(.str "x", .int 2), (.str "sync", .int 4)])])),
        .str "sync", .str "auto", .int 3⟩ => true
    | _ => false) = true := by decide +kernel

end Ex

/-! ## C47: operators -/

/-- **C47** The operators of the class. -/
theorem C47_operators (p : PObj) (m : String) (args : List Val) : p.op m args ≠ none ↔ m ∈ operatorNames := by
  have h : (opTable.find? (·.1 = m)).isSome = true ↔ m ∈ operatorNames := by
    rw [List.find?_isSome]
    have h1 : ∀ x ∈ opTable, x.1 ∈ operatorNames := by decide +kernel
    have h2 : ∀ x ∈ operatorNames, ∃ y ∈ opTable, y.1 = x := by decide +kernel
    constructor
    · rintro ⟨x, hx, he⟩
      have := h1 x hx
      simp only [decide_eq_true_eq] at he
      rwa [he] at this
    · intro hm
      obtain ⟨y, hy, he⟩ := h2 m hm
      exact ⟨y, hy, by simpa using he⟩
  rw [← h]
  unfold PObj.op
  split
  · rename_i hn; simp [hn]
  · rename_i hn
    rw [hn]
    simp only [ne_eq, Option.isSome_some, iff_true]
    split
    · split <;> simp
    · simp

/-- **C47, partial.** Every operator except `__rxor__` asks for the method of the same name of the object of the proxy to be called with the
same arguments, with the options of the proxy; except that `==` with a proxy of the same object is `True` at once. Missing: `__rxor__`
(`C47_fails`). -/
theorem C47_forwards_partial {p : PObj} (hp : Made p) {m : String} (hm : m ∈ operatorNames) (hx : m ≠ "__rxor__") (args : List Val)
    (heq : m = "__eq__" → args ≠ [] ∧ ∀ q, args.head? = some (.proxy q) → ¬ (q.addr = p.proxy.addr ∧ q.oid = p.proxy.oid)) :
    ∃ s r t, p.opts.get? "sync" = some s ∧ p.opts.get? "return_type" = some r ∧ p.opts.get? "timeout" = some t ∧
      p.op m args = some (.asks ⟨("call_obj", some (.dict [(.str "obj", .proxy { p.proxy with attrs := p.proxy.attrs ++ [m] }),
        (.str "args", .tuple args), (.str "kwargs", .dict [])])), s, r, t⟩) := by
  have hd := deferredAttr_eq hp.ok m
  obtain ⟨s, r, t, h1, h2, h3, h4⟩ := C46_call_partial (hp.derive hd) args (kw := []) rfl
  refine ⟨s, r, t, h1, h2, h3, ?_⟩
  have hf : p.forward m args = .ok ⟨("call_obj", some (.dict [(.str "obj", .proxy { p.proxy with attrs := p.proxy.attrs ++ [m] }),
        (.str "args", .tuple args), (.str "kwargs", .dict [])])), s, r, t⟩ := by
    unfold PObj.forward
    rw [hd]
    simpa [remoteKw] using h4
  have ht : ∀ x ∈ operatorNames, x ≠ "__rxor__" → opTable.find? (fun y => decide (y.1 = x)) = some (x, x) := by decide +kernel
  unfold PObj.op
  rw [ht m hm hx]
  simp only
  split
  · rename_i he
    obtain ⟨h5, h6⟩ := heq he
    have hso : p.sameObject args = .ok false := by
      cases args with
      | nil => exact absurd rfl h5
      | cons a as =>
        unfold PObj.sameObject
        split
        · rename_i hh; cases hh
        · rename_i q _ hh
          cases hh
          have := h6 q rfl
          simp only [Except.ok.injEq, Bool.and_eq_false_iff, decide_eq_false_iff_not]
          by_cases ha : q.addr = p.proxy.addr
          · exact .inr fun hb => this ⟨ha, hb⟩
          · exact .inl ha
        · rfl
    rw [hso]
    simp only
    rw [hf]; rfl
  · rw [hf]; rfl

namespace Ex

/-- **C47 fails** for `__rxor__`: `x ^ p` asks for `__ror__` of the remote object. -/
theorem C47_fails : ∃ p, Made p ∧ ∃ s r t, ∀ x : Val, p.op "__rxor__" [x] =
    some (.asks ⟨("call_obj", some (.dict [(.str "obj", .proxy { p.proxy with attrs := p.proxy.attrs ++ ["__ror__"] }),
        (.str "args", .tuple [x]), (.str "kwargs", .dict [])])), s, r, t⟩) :=
  ⟨prox, prox_made, .str "sync", .str "auto", .int 10, fun _ => rfl⟩

example : (match prox.op "__getitem__" [.int 3] with
  | some (.asks ⟨("call_obj", some (.dict [(_, .proxy q), (_, .tuple [.int 3]), _])), _, _, _⟩) => decide (q.attrs = ["__getitem__"])
  | _ => false) = true := by decide +kernel
example : (match prox.op "__eq__" [.int 3] with | some (.asks _) => true | _ => false) = true := by decide +kernel

end Ex

namespace Ex

/-! ## The theorems on these cases -/

example := C43_resolves_partial prox_made rfl (names := ["stdout", "write"]) (by decide +kernel) (view := fun _ => .int 1) (ga := exGa) (t := ⟨4, 6, [(3, (9, [5]))], [(0, 3)]⟩) (v := .int 1) rfl
example := C43_unresolved_partial prox_made rfl (names := ["stdout", "write"]) (by decide +kernel) (view := fun _ => .int 1) (ga := exGa) (t := Refs.init) rfl
/-- A proxy that asks for its attributes at once. -/
def eager : PObj := (prox.setOptions [("defer_getattr", .bool false)]).1
theorem eager_made : Made eager := prox_made.set (kw := [("defer_getattr", .bool false)]) (r := .ok ()) rfl
example := C43_undeferred eager_made rfl (a := "stdout") (by decide +kernel)
example := C44_partial (p := prox) (q := eager) (v := .bool true) rfl
example := C44_equal (p := prox) (q := eager) rfl rfl
example := C45_all_or_nothing_partial (p := prox) [("sync", .str "async"), ("timeout", .int 3)] (show (["sync", "timeout"] : List String).Nodup by decide) rfl
example := C45_nothing (p := prox) (kw := [("sync", .str "async"), ("nope", .int 3)]) rfl
example := C45_known eager_made
example := C46_call_partial eager_made [.int 1] (kw := [("x", .int 2), ("_timeout", .int 3)]) rfl
example := C46_fails [.int 1] [("x", .int 2), ("self", .int 3)] rfl prox
/-- The call `prox(1)` arrives at server A with the object 5 for the proxy. -/
example := C46_invokes_partial prox_made (args := [.int 1]) (kw := []) rfl rfl rfl (ser := .json) (L := lib) (tys := []) (P := fun v v' => v = .proxy prox.proxy ∧ v' = .int 5)
  (d := [(.str "obj", .int 5), (.str "args", .list [.int 1]), (.str "kwargs", .dict [])]) (by
    simp only [Ser.Arrives, JArrives, JArrivesD, JArrivesL]
    exact ⟨_, rfl, _, _, _, rfl, rfl, ⟨trivial, rfl⟩, _, _, _, rfl, rfl, ⟨_, rfl, _, _, rfl, by simp, rfl⟩, _, _, _, rfl, rfl, ⟨_, rfl, by rfl⟩, rfl⟩) (H := heap) (s := srv) (parts := [[65], [1], [13], [20], [31], [3]]) (c := [65]) (k := 1) (rt := "auto") (st := "json")
  ⟨⟨rfl, rfl, rfl⟩, by decide, [3], .json, by decide, rfl, rfl⟩
example := C47_forwards_partial prox_made (m := "__eq__") (by decide +kernel) (by decide) [.proxy { prox.proxy with oid := 4 }] (fun _ => ⟨by simp, by simp [prox]⟩)

end Ex

end Verif
