import Verif.Props.Proxy
import Verif.Model.Timer
import Verif.Props.Address
/-!
# More about proxies: own names, copies, texts, options of received proxies (C43, C44, C101, C102, C103)
-/
namespace Verif

/-! ## C43, C44: details -/

/-- The attributes of a proxy object; proxy.py:94-103. -/
def proxyState : List String :=
  ["_rpc_addr", "_obj_id", "_ref_id", "_type_str", "_attributes", "_parent_proxy", "_hash", "_client_", "_server_", "_proxy_options"]

/-- The methods of the class other than the operators; proxy.py:83-355, 368-372. -/
def proxyMethods : List String :=
  ["__init__", "_init_state", "__setstate__", "__getstate__", "_copy", "_client", "_server", "_set_proxy_options", "_get_value", "__repr__",
   "_undefer", "_delete", "__del__", "__getattr__", "_deferred_attr", "__call__", "__hash__", "__str__"]

/-- What every Python object has, beyond what the class defines itself. -/
def objectNames : List String :=
  ["__class__", "__delattr__", "__dict__", "__dir__", "__doc__", "__format__", "__getattribute__", "__init_subclass__", "__module__", "__new__",
   "__reduce__", "__reduce_ex__", "__sizeof__", "__subclasshook__", "__weakref__"]

/-- **C43** The names that are not looked up on the remote object: state and methods of the proxy, operators of the class, and what every
object has; all others are. -/
theorem C43_names (p : PObj) (a : String) : p.getattr a = .own a ↔ a ∈ proxyState ∨ a ∈ proxyMethods ∨ a ∈ operatorNames ∨ a ∈ objectNames := by
  have h1 : ∀ x ∈ ownNames, x ∈ proxyState ∨ x ∈ proxyMethods ∨ x ∈ operatorNames ∨ x ∈ objectNames := by decide +kernel
  have h2 : ∀ x ∈ proxyState ++ proxyMethods ++ operatorNames ++ objectNames, x ∈ ownNames := by decide +kernel
  have h3 : p.getattr a = .own a ↔ a ∈ ownNames := by
    unfold PObj.getattr
    constructor
    · intro h
      split at h
      · assumption
      · split at h
        · cases h
        · split at h
          · cases h
          · split at h <;> cases h
    · intro h; rw [if_pos h]
  rw [h3]
  exact ⟨h1 a, fun h => h2 a (by simp only [List.mem_append]; rcases h with h | h | h | h <;> simp [h])⟩

/-- **C43** An option is on exactly if it is `True` itself. -/
theorem C43_flag (p : PObj) (k : String) : p.on k = true ↔ p.opts.get? k = some (.bool true) := by
  unfold PObj.on
  split
  · rename_i v hv
    rw [hv]
    cases v <;> simp [Val.isTrue]
    rename_i b
    cases b <;> simp
  · rename_i hv
    rw [hv]; simp

/-- **C43** `_undefer` of a proxy without attributes is the proxy itself; else it asks for the object once, as told. -/
theorem C43_undefer (p : PObj) (sync rt : Val) :
    (p.proxy.attrs = [] → p.undefer sync rt = none) ∧
    (p.proxy.attrs ≠ [] → p.undefer sync rt = some ⟨("get_obj", some (.dict [(.str "obj", .proxy p.proxy)])), sync, rt, .int 10⟩) := by
  unfold PObj.undefer getObjReq
  constructor
  · intro h; simp [h]
  · intro h; simp [h]

/-- **C44** `__eq__()` without an argument raises IndexError. -/
theorem C44_empty (p : PObj) : p.op "__eq__" [] = some (.raises .indexError) := rfl

example : Ex.prox.getattr "_get_value" = .own "_get_value" := (C43_names _ _).2 (by decide +kernel)

/-! ## C101: copies -/

/-- **C101** A copy is for the same object and attributes, with the same options. -/
theorem C101_result {p q : PObj} (hp : Made p) {parent answer rs} (h : p.copy parent answer = (rs, .ok q)) : q.proxy = p.proxy ∧ ∀ k, q.opts.get? k = p.opts.get? k := by
  rw [copy_ok hp.ok h]; exact ⟨rfl, fun _ => rfl⟩

/-- **C101, partial.** A proxy that was not derived by attribute access is copied without contacting the server, and this never fails. Missing: derived
proxies (`C101_fails`). -/
theorem C101_plain_partial {p : PObj} (hp : Made p) (answer) : p.copy none answer = ([], .ok p) := by
  unfold PObj.copy
  rw [new_copies hp.ok]

/-- The request to call attribute `m` of the object of `p` with these arguments and the options of `p`. -/
def AsksCall (p : PObj) (m : String) (args : List Val) (r : ProxyReq) : Prop :=
  r.req = ("call_obj", some (.dict [(.str "obj", .proxy { p.proxy with attrs := p.proxy.attrs ++ [m] }), (.str "args", .tuple args), (.str "kwargs", .dict [])])) ∧
  p.opts.get? "sync" = some r.sync ∧ p.opts.get? "return_type" = some r.returnType ∧ p.opts.get? "timeout" = some r.timeout

theorem forward_asks {p : PObj} (hp : Made p) (m : String) (args : List Val) : ∃ r, p.forward m args = .ok r ∧ AsksCall p m args r := by
  have hd := deferredAttr_eq hp.ok m
  obtain ⟨s, r, t, h1, h2, h3, h4⟩ := C46_call_partial (hp.derive hd) args (kw := []) rfl
  refine ⟨⟨_, s, r, t⟩, ?_, rfl, h1, h2, h3⟩
  unfold PObj.forward
  rw [hd]
  simpa [remoteKw] using h4

theorem copy_name : "copy" ∉ ownNames := by decide +kernel

/-- **C101 fails** for a proxy derived by attribute access, `p.a`: its `_copy` calls `copy` of the remote object of `p`; if that raises, so does `_copy`; if not, it calls `__setattr__`
of the remote attribute with the answer. -/
theorem C101_fails {p q : PObj} (hp : Made p) (hd : p.on "defer_getattr" = true) {a : String} (hq : p.deferredAttr a = .ok q) (answer : ProxyReq → Except Exc Val) :
    ∃ r, AsksCall p "copy" [] r ∧
      (∀ e, answer r = .error e → q.copy (some p) answer = ([r], .error e)) ∧
      ∀ v, answer r = .ok v → ∃ r', AsksCall q "__setattr__" [.str "_parent_proxy", v] r' ∧
        q.copy (some p) answer = ([r, r'], match answer r' with | .error e => .error e | .ok _ => .ok q) := by
  obtain ⟨r, hr, har⟩ := forward_asks hp "copy" []
  have hc := deferredAttr_eq hp.ok "copy"
  have hg : p.getattr "copy" = .deferred ⟨{ p.proxy with attrs := p.proxy.attrs ++ ["copy"] }, p.opts⟩ := by
    unfold PObj.getattr
    rw [if_neg copy_name, hc]
    simp [hd]
  have hcall : PObj.call ⟨{ p.proxy with attrs := p.proxy.attrs ++ ["copy"] }, p.opts⟩ [] [] = .ok r := by
    unfold PObj.forward at hr
    rw [hc] at hr
    exact hr
  refine ⟨r, har, fun e he => ?_, fun v hv => ?_⟩
  · unfold PObj.copy
    rw [new_copies (hp.derive hq).ok]
    simp only
    rw [hg]
    simp only
    rw [hcall]
    simp only
    rw [he]
  · obtain ⟨r', hr', har'⟩ := forward_asks (hp.derive hq) "__setattr__" [.str "_parent_proxy", v]
    refine ⟨r', har', ?_⟩
    unfold PObj.copy
    rw [new_copies (hp.derive hq).ok]
    simp only
    rw [hg]
    simp only
    rw [hcall]
    simp only
    rw [hv]
    simp only
    unfold PObj.setParent
    rw [show (⟨q.proxy, q.opts⟩ : PObj) = q from rfl, hr']
    simp only
    cases answer r' <;> rfl

/-- **C101 fails** also with option `defer_getattr` off: the first request is for the attribute `copy`. -/
theorem C101_fails_undeferred {p q : PObj} (hp : Made p) (hd : p.on "defer_getattr" = false) {a : String} (hq : p.deferredAttr a = .ok q) (answer : ProxyReq → Except Exc Val) :
    (q.copy (some p) answer).1.head? = some ⟨("get_obj", some (.dict [(.str "obj", .proxy { p.proxy with attrs := p.proxy.attrs ++ ["copy"] })])), .str "sync", .str "auto", .int 10⟩ := by
  have hg := C43_undeferred hp hd copy_name
  have hset : ∀ (d : PObj) (l : List ProxyReq) (v : Val), l ≠ [] → (d.setParent answer l v).1.head? = l.head? := by
    intro d l v hl
    obtain ⟨x, l', rfl⟩ : ∃ x l', l = x :: l' := by cases l with | nil => exact absurd rfl hl | cons x l' => exact ⟨x, l', rfl⟩
    unfold PObj.setParent
    split
    · rfl
    · split <;> rfl
  unfold PObj.copy
  rw [new_copies (hp.derive hq).ok]
  simp only
  rw [hg]
  simp only
  split
  · rfl
  · split
    · rfl
    · split
      · rfl
      · rw [hset _ _ _ (by simp)]; rfl
  · rfl

/-- **C101 fails**, with option `defer_getattr` off: if that request fails, so does `_copy`; if the attribute is a value other than a proxy, `_copy` calls it: TypeError. -/
theorem C101_fails_value {p q : PObj} (hp : Made p) (hd : p.on "defer_getattr" = false) {a : String} (hq : p.deferredAttr a = .ok q) (answer : ProxyReq → Except Exc Val) :
    ∃ r, (q.copy (some p) answer).1.head? = some r ∧ (∀ e, answer r = .error e → q.copy (some p) answer = ([r], .error e)) ∧
      ∀ v, answer r = .ok v → (∀ c, v ≠ .proxy c) → q.copy (some p) answer = ([r], .error .typeError) := by
  refine ⟨_, C101_fails_undeferred hp hd hq answer, fun e he => ?_, fun v hv hc => ?_⟩
  · unfold PObj.copy
    rw [new_copies (hp.derive hq).ok]
    simp only
    rw [C43_undeferred hp hd copy_name]
    simp only
    rw [he]
  · unfold PObj.copy
    rw [new_copies (hp.derive hq).ok]
    simp only
    rw [C43_undeferred hp hd copy_name]
    simp only
    rw [hv]
    cases v <;> first | rfl | exact absurd rfl (hc _)

/-- **C101** Pickling a proxy and `copy.copy` keep what it stands for and give it the options of a new proxy, whatever its options were. -/
theorem C101_pickled (p : PObj) : p.restored.proxy = p.proxy ∧ PObj.new p.proxy [] = .ok p.restored := ⟨rfl, rfl⟩

/-- **C101 fails** for options of pickled proxies. -/
theorem C101_fails_pickled : ∃ p : PObj, Made p ∧ p.opts.get? "sync" = some (.str "off") ∧ p.restored.opts.get? "sync" = some (.str "sync") :=
  ⟨⟨Ex.prox.proxy, defaultOptions.set "sync" (.str "off")⟩, .new (x := Ex.prox.proxy) (kw := [("sync", .str "off")]) rfl, rfl, rfl⟩

theorem timer_ended {s : TimerSt} (hs : s.pc = .ending ∨ s.pc = .dead) (es : List TimerEv) : ∀ t, .called t ∉ (s.run es).2 := by
  induction es generalizing s with
  | nil => intro t h; cases h
  | cons e es ih =>
    intro t h
    simp only [TimerSt.run, List.mem_append] at h
    have key : (∀ t, .called t ∉ (s.step e).2) ∧ ((s.step e).1.pc = .ending ∨ (s.step e).1.pc = .dead) := by
      cases e <;> simp only [TimerSt.step, TimerSt.go]
      · exact ⟨by simp, hs⟩
      · exact ⟨by simp, hs⟩
      · split
        · exact ⟨by simp, hs⟩
        · split
          · exact ⟨by simp, hs⟩
          · exact ⟨by simp, hs⟩
      · split
        · exact ⟨by simp, hs⟩
        · split
          · rename_i h1; rw [h1] at hs; simp at hs
          · exact ⟨by simp, hs⟩
      · exact ⟨by simp, hs⟩
      · rcases hs with h1 | h1 <;> rw [h1] <;> simp [h1]
      · rcases hs with h1 | h1 <;> simp [h1]
    rcases h with h | h
    · exact key.1 t h
    · exact ih key.2 t h

theorem timer_early (es : List TimerEv) {s : TimerSt} (hs : s.pc = .new ∨ s.pc = .copying) (he : (s.run es).1.pc = .copying) : ∀ t, .called t ∉ (s.run es).2 := by
  induction es generalizing s with
  | nil => intro t h; cases h
  | cons e es ih =>
    intro t h
    simp only [TimerSt.run, List.mem_append] at h he
    have key : (∀ t, .called t ∉ (s.step e).2) ∧ ((s.step e).1.pc = .new ∨ (s.step e).1.pc = .copying ∨ ((s.step e).1.pc ≠ .copying ∧ (s.step e).1.pc ≠ .new)) := by
      constructor
      · cases e <;> simp only [TimerSt.step, TimerSt.go] <;> try (simp; done)
        · split
          · simp
          · split <;> simp
        · split
          · simp
          · split <;> simp
        · rcases hs with h1 | h1 <;> rw [h1] <;> simp
        · split <;> simp
      · by_cases h1 : (s.step e).1.pc = .new
        · exact .inl h1
        · by_cases h2 : (s.step e).1.pc = .copying
          · exact .inr (.inl h2)
          · exact .inr (.inr ⟨h2, h1⟩)
    rcases key.2 with h1 | h1 | h1
    · rcases h with h | h
      · exact key.1 t h
      · exact ih (.inl h1) he t h
    · rcases h with h | h
      · exact key.1 t h
      · exact ih (.inr h1) he t h
    · exfalso
      have gone : ∀ (es : List TimerEv) (s : TimerSt), s.pc ≠ .copying ∧ s.pc ≠ .new → (s.run es).1.pc ≠ .copying ∧ (s.run es).1.pc ≠ .new := by
        intro es
        induction es with
        | nil => exact fun _ h => h
        | cons e es ih =>
          intro s hs
          simp only [TimerSt.run]
          apply ih
          cases e <;> simp only [TimerSt.step, TimerSt.go]
          · exact hs
          · exact hs
          · split
            · exact hs
            · split <;> exact hs
          · split
            · exact hs
            · split
              · rename_i h1; exact absurd h1 hs.2
              · exact hs
          · exact hs
          · split
            · exact hs
            · exact hs
            · simp
            · split <;> simp
            · split
              · simp
              · split <;> simp
            · split
              · simp
              · exact hs
            · split <;> simp
            · simp
            · simp
            · split
              · simp
              · split <;> simp
            · simp
          · split
            · simp
            · exact hs
      exact (gone es _ h1).1 he

/-- **C101** (consequence) A timer whose callback is a proxy it cannot copy never calls it, whatever is done with it, before or after. -/
theorem C101_timer (interval : Int) (limit : Option Int) (now : Int) (x y : List TimerEv)
    (h : ((TimerSt.init interval limit now).run x).1.pc = .copying) : ∀ t, .called t ∉ ((TimerSt.init interval limit now).run (x ++ .fail :: y)).2 := by
  intro t ht
  have happ : ∀ (a b : List TimerEv) (s : TimerSt), s.run (a ++ b) = (((s.run a).1.run b).1, (s.run a).2 ++ ((s.run a).1.run b).2) := by
    intro a b
    induction a with
    | nil => intro s; simp [TimerSt.run]
    | cons e a ih => intro s; simp only [List.cons_append, TimerSt.run, ih]; simp
  rw [happ] at ht
  simp only [List.mem_append] at ht
  rcases ht with ht | ht
  · exact timer_early x (.inl rfl) h t ht
  · simp only [TimerSt.run, List.mem_append] at ht
    rcases ht with ht | ht
    · simp only [TimerSt.step, h] at ht; simp at ht
    · exact timer_ended (s := ((((TimerSt.init interval limit now).run x).1.step .fail).1)) (by simp [TimerSt.step, h]) y t ht

/-- `rp.method` given to a timer: the remote object has no `copy`. -/
example : ∃ q : PObj, Ex.prox.deferredAttr "tick" = .ok q ∧ (match q.copy (some Ex.prox) (fun _ => .error .attributeError) with
    | ([⟨("call_obj", some (.dict [(_, .proxy x), _, _])), _, _, _⟩], .error .attributeError) => decide (x.attrs = ["copy"])
    | _ => false) = true := ⟨_, rfl, by decide +kernel⟩
example : (Ex.prox.copy none (fun _ => .error .attributeError)).1.length = 0 := by rw [C101_plain_partial Ex.prox_made]; rfl
example : ((TimerSt.init 10 none 0).run [.start, .check, .launch]).1.pc = .copying := by decide +kernel
/-- With a `copy`: two requests, and the parent of the copy is not set here but there. -/
example : ∃ q : PObj, Ex.prox.deferredAttr "tick" = .ok q ∧ ((q.copy (some Ex.prox) (fun _ => .ok .none)).1.length = 2) := ⟨_, rfl, by decide +kernel⟩

/-! ## C102: texts -/

/-- **C102** With `safe_print` both texts are made here, of address, id, type and attributes. -/
theorem C102_safe (p : PObj) (h : p.on "safe_print" = true) :
    p.repr = .text ("<ObjectProxy for " ++ p.proxy.addr ++ "[" ++ toString p.proxy.oid ++ "] " ++ ".".intercalate (p.proxy.typeStr :: p.proxy.attrs) ++ " >") ∧ p.str = p.repr := by
  unfold PObj.str PObj.repr PObj.wrapped
  simp [h]

/-- The request for a text: method `m` of the object of `p`, by value, with the options of `p` otherwise. -/
def AsksText (p : PObj) (m : String) (r : ProxyReq) : Prop :=
  r.req = ("call_obj", some (.dict [(.str "obj", .proxy { p.proxy with attrs := p.proxy.attrs ++ [m] }), (.str "args", .tuple []), (.str "kwargs", .dict [])])) ∧
  p.opts.get? "sync" = some r.sync ∧ r.returnType = .str "value" ∧ p.opts.get? "timeout" = some r.timeout

theorem askText_asks {p : PObj} (hp : Made p) (m : String) : ∃ r, p.askText m = .asks r ∧ AsksText p m r := by
  have hd := deferredAttr_eq hp.ok m
  obtain ⟨s, r, t, h1, h2, h3, h4⟩ := C46_call_partial (hp.derive hd) [] (kw := [("_return_type", .str "value")]) rfl
  refine ⟨⟨_, s, .str "value", t⟩, ?_, rfl, h1, rfl, h3⟩
  unfold PObj.askText
  rw [hd]
  simp only
  rw [h4]
  rfl

/-- **C102, partial.** Without `safe_print` the object is asked for its text by value. The answer `s` is `str(p)`; `repr(p)` is `s` in the same frame as with `safe_print`.
Missing: the answer is a text only in mode sync (`C102_fails`). -/
theorem C102_asks_partial {p : PObj} (hp : Made p) (h : p.on "safe_print" = false) :
    (∃ r, p.repr = .asks r ∧ AsksText p "__repr__" r) ∧ (∃ r, p.str = .asks r ∧ AsksText p "__str__" r) ∧
    ∀ (s : String) (strOf : Val → String), strOf (.str s) = s → strAnswer (.str s) = .ok s ∧
      p.reprAnswer strOf (.str s) = "<ObjectProxy for " ++ p.proxy.addr ++ "[" ++ toString p.proxy.oid ++ "] " ++ s ++ " >" := by
  refine ⟨?_, ?_, fun s strOf hs => ⟨rfl, by unfold PObj.reprAnswer PObj.wrapped; rw [hs]⟩⟩
  · unfold PObj.repr; rw [h]; exact askText_asks hp _
  · unfold PObj.str; rw [h]; exact askText_asks hp _

/-- **C102 fails** without `safe_print` in mode off: the request is sent with `off`, whose answer is None, and `str(p)` raises TypeError. -/
theorem C102_fails : ∃ p, Made p ∧ p.on "safe_print" = false ∧ (∃ r, p.str = .asks r ∧ r.sync = .str "off") ∧ strAnswer .none = .error .typeError :=
  ⟨⟨Ex.prox.proxy, (defaultOptions.set "sync" (.str "off")).set "safe_print" (.bool false)⟩,
    .new (x := Ex.prox.proxy) (kw := [("sync", .str "off"), ("safe_print", .bool false)]) rfl, rfl, ⟨_, rfl, rfl⟩, rfl⟩

theorem digits_split {a b x y : List Char} {c : Char} (ha : c ∉ a) (hb : c ∉ b) (h : a ++ c :: x = b ++ c :: y) : a = b := by
  induction a generalizing b with
  | nil =>
    cases b with
    | nil => rfl
    | cons d b => simp at h; exact absurd h.1 (by intro hh; exact hb (by simp [hh]))
  | cons d a ih =>
    cases b with
    | nil => simp at h; exact absurd h.1 (by intro hh; exact ha (by simp [hh]))
    | cons d' b =>
      simp only [List.cons_append, List.cons.injEq] at h
      simp only [List.mem_cons, not_or] at ha hb
      rw [h.1, ih ha.2 hb.2 h.2]

/-- **C102** With `safe_print`, the texts of proxies for different objects of a server differ. -/
theorem C102_distinct (p q : PObj) (hp : p.on "safe_print" = true) (hq : q.on "safe_print" = true) (ha : p.proxy.addr = q.proxy.addr) (h : p.repr = q.repr) :
    p.proxy.oid = q.proxy.oid := by
  rw [(C102_safe p hp).1, (C102_safe q hq).1] at h
  injection h with h
  have h2 := congrArg String.toList h
  simp only [String.toList_append, ha, List.append_assoc] at h2
  have h3 := List.append_cancel_left (List.append_cancel_left (List.append_cancel_left h2))
  have hb : ∀ n : Nat, ']' ∉ (toString n).toList := by
    intro n hn
    have := Nat.isDigit_of_mem_toDigits (b := 10) (n := n) (by decide) (by decide) (c := ']') (by simpa [Nat.repr] using hn)
    revert this; decide
  have h4 : (toString p.proxy.oid).toList = (toString q.proxy.oid).toList := digits_split (hb _) (hb _) h3
  exact toDigits_inj (b := 10) (by decide) (by decide) _ _ (by simpa [toString, Nat.repr] using h4)

/-! ## C103: options of received proxies -/

/-- **C103** Whatever proxy a client receives: if all names in `default_proxy_options` are options, it gets them, and the defaults for the rest; else receiving it raises KeyError (TypeError for
a name `self`). -/
theorem C103_received (x : Proxy) (d : Dict String Val) (hw : d.WF) :
    (d.has "self" = true → PObj.received x d = .error .typeError) ∧
    (d.has "self" = false → (∀ k ∈ d.map (·.1), k ∈ ["sync", "timeout", "return_type", "defer_getattr", "no_proxy_types", "auto_delete", "safe_print"]) →
      ∃ q, PObj.received x d = .ok q ∧ q.proxy = x ∧ ∀ k, q.opts.get? k = match d.get? k with | some v => some v | none => defaultOptions.get? k) ∧
    (d.has "self" = false → (∃ k ∈ d.map (·.1), k ∉ ["sync", "timeout", "return_type", "defer_getattr", "no_proxy_types", "auto_delete", "safe_print"]) → PObj.received x d = .error .keyError) := by
  have hn : PObj.new x [] = .ok ⟨x, defaultOptions⟩ := rfl
  have hk : defaultOptions.map (·.1) = ["sync", "timeout", "return_type", "defer_getattr", "no_proxy_types", "auto_delete", "safe_print"] := rfl
  refine ⟨fun h => ?_, fun h hall => ?_, fun h hex => ?_⟩
  · unfold PObj.received; rw [hn]; simp [PObj.setOptions, h]
  · rcases C45_all_or_nothing_partial (p := ⟨x, defaultOptions⟩) d hw h with ⟨q, hq, h1, _, h3⟩ | ⟨_, k, hk1, hk2⟩
    · refine ⟨q, ?_, h1, h3⟩
      unfold PObj.received; rw [hn]; simp only; rw [hq]
    · exact absurd (hall k hk1) (by rw [← hk]; exact hk2)
  · rcases C45_all_or_nothing_partial (p := ⟨x, defaultOptions⟩) d hw h with ⟨q, hq, _, h2, _⟩ | ⟨h1, _⟩
    · obtain ⟨k, h4, h5⟩ := hex
      exact absurd (h2 k h4) (by rw [← hk] at h5; exact h5)
    · unfold PObj.received; rw [hn]; simp only; rw [h1]

/-- **C103** The options of a new proxy. -/
theorem C103_defaults (x : Proxy) : ∃ p, PObj.new x [] = .ok p ∧ p.proxy = x ∧ p.opts.get? "sync" = some (.str "sync") ∧ p.opts.get? "timeout" = some (.int 10) ∧
    p.opts.get? "return_type" = some (.str "auto") ∧ p.opts.get? "defer_getattr" = some (.bool true) ∧ p.opts.get? "auto_delete" = some (.bool false) ∧
    p.opts.get? "safe_print" = some (.bool true) := ⟨_, rfl, rfl, rfl, rfl, rfl, rfl, rfl, rfl⟩

/-- **C103** Attributes of a proxy have its options. -/
theorem C103_derived {p q : PObj} (hp : Made p) {a : String} (h : p.deferredAttr a = .ok q) : q.opts = p.opts ∧ q.proxy = { p.proxy with attrs := p.proxy.attrs ++ [a] } := by
  rw [deferredAttr_eq hp.ok] at h
  cases h; exact ⟨rfl, rfl⟩

example : ∃ q, PObj.received Ex.prox.proxy [("defer_getattr", .bool false)] = .ok q ∧ q.on "defer_getattr" = false := ⟨_, rfl, rfl⟩
example : (match PObj.received Ex.prox.proxy [("defer_getatr", .bool false)] with | .error .keyError => true | _ => false) = true := by decide +kernel
example : (match Ex.prox.repr with | .text s => s == "<ObjectProxy for tcp://s:1[3] type >" | _ => false) = true := by decide +kernel

namespace Ex

/-! ## The theorems on these cases -/

example := C101_result prox_made (parent := none) (answer := fun _ => .error .attributeError) rfl
example := C101_fails prox_made rfl (a := "tick") rfl fun _ => .ok .none
example := C101_fails_undeferred eager_made rfl (a := "tick") rfl fun _ => .ok .none
example := C101_fails_value eager_made rfl (a := "tick") rfl fun _ => .ok .none
example := C101_timer 10 none 0 [.start, .check, .launch] [.tick 10, .go] (by decide +kernel)
example := C102_safe prox rfl
/-- A proxy that asks for its text. -/
def unsafeProx : PObj := (prox.setOptions [("safe_print", .bool false)]).1
theorem unsafeProx_made : Made unsafeProx := prox_made.set (kw := [("safe_print", .bool false)]) (r := .ok ()) rfl
example := C102_asks_partial unsafeProx_made rfl
example := C102_distinct prox eager rfl rfl rfl rfl
example := (C103_received prox.proxy [("defer_getattr", .bool false)] (by simp [Dict.WF])).2.1 rfl (by simp)
example := C103_derived unsafeProx_made (a := "tick") rfl

end Ex

end Verif
