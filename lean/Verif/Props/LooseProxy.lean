import Verif.Model.LooseProxy
import Verif.Proof.Formats
import Verif.Props.ServerExample
/-!
# C134: what a proxy with any fields stands for
-/
namespace Verif

theorem utf8Bytes_inj {a b : String} (h : utf8Bytes a = utf8Bytes b) : a = b := by
  have := congrArg utf8Text h
  rw [utf8Text_bytes, utf8Text_bytes] at this
  exact Option.some.inj this

/-- A proxy as `__getstate__` writes it, with its fields as values. -/
def LooseProxy.of (p : Proxy) : LooseProxy := ⟨.bytes (utf8Bytes p.addr), .int p.oid, .int p.rid, .str p.typeStr, p.attrs.map .str⟩

theorem asStrs_some : ∀ {l : List Val} {as : List String}, asStrs l = some as → l = as.map .str
  | [], as, h => by simp only [asStrs, Option.some.injEq] at h; subst h; rfl
  | v :: r, as, h => by
    cases v
    case str s =>
      simp only [asStrs, Option.map_eq_some_iff] at h
      obtain ⟨as', h1, rfl⟩ := h
      rw [asStrs_some h1]; rfl
    all_goals simp [asStrs] at h

theorem asNat_some {v : Val} {n : Nat} (h : v.asNat? = some n) : v = .int n := by
  cases v
  case int i =>
    simp only [Val.asNat?] at h
    split at h
    · cases h; rename_i hi; rw [Int.toNat_of_nonneg hi]
    · cases h
  all_goals cases h

theorem asStr_some {v : Val} {s : String} (h : v.asStr? = some s) : v = .str s := by
  cases v
  case str => cases h; rfl
  all_goals cases h

theorem looseProxyOf_typed {d : List (Val × Val)} {p : Proxy} (h : proxyOfDict d = .ok p) : looseProxyOf d = .ok (.of p) := by
  unfold proxyOfDict at h
  unfold looseProxyOf
  split at h
  · cases h
  rename_i l hl
  split at h
  · cases h
  rename_i ks hk
  split at h
  · cases h
  rename_i hs
  split at h
  · rename_i addr oid rid h1 h2 h3
    split at h
    · cases h
    rename_i hall
    split at h
    · rename_i ts attrs h4 h5
      cases h
      simp only [Option.bind_eq_some_iff] at h1 h2 h3
      obtain ⟨a, ha, ha'⟩ := h1
      obtain ⟨o, ho, ho'⟩ := h2
      obtain ⟨r, hr, hr'⟩ := h3
      have e1 := asStr_some ha'
      have e2 := asNat_some ho'
      have e3 := asNat_some hr'
      subst e1 e2 e3
      have e4 := asStrs_some h5
      subst e4
      have e5 : (lookupStr d "type_str").getD (.str "") = .str ts := by
        cases ht : lookupStr d "type_str" with
        | none => rw [ht] at h4; cases h4; rfl
        | some v => rw [ht] at h4; exact asStr_some h4
      rw [hl]
      simp only [hk, if_neg hs, ha, ho, hr, if_neg hall, keptAddr, LooseProxy.of, e5]
    · cases h
  · cases h

theorem looseGetattrs_strs (ga : GetAttr) : ∀ (v : Val) (as : List String), looseGetattrs ga v (as.map .str) = getattrs ga v as
  | _, [] => rfl
  | v, a :: as => by
    simp only [List.map_cons, looseGetattrs, getattrs]
    cases ga v a with
    | error e => rfl
    | ok v' => exact looseGetattrs_strs ga v' as

theorem looseGetattrs_ok {ga : GetAttr} : ∀ {v x : Val} {l : List Val}, looseGetattrs ga v l = .ok x → ∃ as : List String, l = as.map .str ∧ getattrs ga v as = .ok x
  | _, _, [], h => ⟨[], rfl, h⟩
  | v, x, a :: r, h => by
    cases a
    case str s =>
      simp only [looseGetattrs] at h
      cases hg : ga v s with
      | error e => rw [hg] at h; cases h
      | ok v' =>
        rw [hg] at h
        obtain ⟨as, rfl, h2⟩ := looseGetattrs_ok h
        exact ⟨s :: as, rfl, by simp only [getattrs, hg]; exact h2⟩
    all_goals cases h

/-- **C134** Where the fields have the types that proxies are written with, reading with any fields is the reading of the other theorems: a proxy of another process is kept with its
fields; one of the reader's own server gives the object of that id with its attributes, or what looking them up raises; and if the id is not in the table, KeyError, unless the message
gives the proxy options of its own. -/
theorem C134_agrees (H : Heap) (f : Val → Except Exc Unit) (popts : Dict String Val) (own : Option (String × Refs)) (d : List (Val × Val)) (p : Proxy) (h : proxyOfDict d = .ok p) :
    ((∀ a t, own = some (a, t) → p.addr ≠ a) → decodeLoose H f popts own d = .proxy (.of p)) ∧
    (∀ t o, own = some (p.addr, t) → t.lookup p.oid = .ok o →
      decodeLoose H f popts own d = match t.unwrap H.view H.ga p with | .ok v => .value v | .error e => .raises e) ∧
    (∀ t e, own = some (p.addr, t) → t.lookup p.oid = .error e →
      (∀ k ∈ ["defer_getattr", "safe_print"], popts.get? k = none ∧ lookupStr d k = none) →
      decodeLoose H f popts own d = .raises .keyError ∧ t.unwrap H.view H.ga p = .error .keyError) := by
  have hq := looseProxyOf_typed h
  refine ⟨fun hn => ?_, fun t o ho hl => ?_, fun t e ho hl hopt => ?_⟩
  · unfold decodeLoose
    rw [hq]
    simp only [LooseProxy.of]
    cases own with
    | none => rfl
    | some x =>
      obtain ⟨a, t⟩ := x
      simp only
      rw [if_neg]
      exact fun hb => hn a t rfl (utf8Bytes_inj hb)
  · unfold decodeLoose
    rw [hq]
    have hk : idKey H (.int p.oid) = .ok (some p.oid) := by simp [idKey]
    simp only [LooseProxy.of, ho, if_true, hk, hl, looseGetattrs_strs, Refs.unwrap]
    cases getattrs H.ga (H.view o) p.attrs <;> rfl
  · obtain ⟨h1, h2⟩ := hopt "defer_getattr" (by simp)
    obtain ⟨h3, h4⟩ := hopt "safe_print" (by simp)
    have hk : idKey H (.int p.oid) = .ok (some p.oid) := by simp [idKey]
    have hs : ∀ as : List String, asStrs (as.map .str) = some as := by
      intro as
      induction as with
      | nil => rfl
      | cons a as ih => simp [asStrs, ih]
    have he : e = .keyError := by
      simp only [Refs.lookup] at hl
      split at hl
      · cases hl
      · cases hl; rfl
    subst he
    unfold decodeLoose
    rw [hq]
    simp only [LooseProxy.of, ho, if_true, hk, hl, looseUnknown, looseOption, h1, h2, h3, h4, Refs.unwrap]
    simp only [not_true_eq_false, if_false]
    have : asStrs (Val.str p.typeStr :: p.attrs.map Val.str) = some (p.typeStr :: p.attrs) := hs (p.typeStr :: p.attrs)
    rw [this]
    exact ⟨rfl, trivial⟩

/-- Values that are neither integers nor booleans, but may equal an integer: floats and numbers of numpy, and objects with an equality of their own. -/
def Val.mayEqual : Val → Prop
  | .int _ | .bool _ | .none | .str _ | .bytes _ | .list _ | .dict _ => False
  | _ => True

/-- The number a value stands for as an id: itself, 0 and 1 for booleans, and for values that may equal a number the one Python finds them equal to. -/
inductive IsId (H : Heap) : Val → Nat → Prop
  | int (n : Nat) : IsId H (.int n) n
  | bool (b : Bool) : IsId H (.bool b) b.toNat
  | other (v : Val) (n : Nat) : v.mayEqual → H.numKey v = .ok (some n) → IsId H v n

/-- **C134** Whatever the fields of a proxy in a message are, it gives an object of the server only if its id equals the id of an object in the table at that moment, and only the object that
a proxy with that number and with these attributes, all texts, stands for. -/
theorem C134_reaches (H : Heap) (f : Val → Except Exc Unit) (popts : Dict String Val) (own : Option (String × Refs)) (d : List (Val × Val)) (v : Val)
    (h : decodeLoose H f popts own d = .value v) :
    ∃ addr t oid n o as, own = some (addr, t) ∧ lookupStr d "obj_id" = some oid ∧ IsId H oid n ∧ t.lookup n = .ok o ∧ getattrs H.ga (H.view o) as = .ok v ∧
      (lookupStr d "rpc_addr" = some (.str addr) ∨ lookupStr d "rpc_addr" = some (.bytes (utf8Bytes addr))) ∧
      t.unwrap H.view H.ga ⟨addr, n, 0, "", as⟩ = .ok v := by
  unfold decodeLoose at h
  split at h
  · cases h
  rename_i q hq
  have hun : ∀ x, looseUnknown f popts d q ≠ .value x := by
    intro x hx
    unfold looseUnknown at hx
    repeat' (split at hx)
    all_goals cases hx
  split at h
  · rename_i addr t b hb
    split at h
    · rename_i hbe
      split at h
      · cases h
      · exact absurd h (hun _)
      · rename_i n hk
        split at h
        · exact absurd h (hun _)
        · rename_i o ho
          split at h
          · rename_i x hg
            cases h
            obtain ⟨as, has, hga⟩ := looseGetattrs_ok hg
            unfold looseProxyOf at hq
            split at hq
            · cases hq
            split at hq
            · cases hq
            split at hq
            · cases hq
            split at hq
            · rename_i a oid r h1 h2 h3
              split at hq
              · cases hq
              · cases hq
                refine ⟨addr, t, oid, n, o, as, rfl, h2, ?_, ho, hga, ?_, ?_⟩
                · cases oid
                  case int i =>
                    simp only [idKey] at hk
                    split at hk
                    · rename_i hi
                      cases hk
                      have := IsId.int (H := H) i.toNat
                      rwa [Int.toNat_of_nonneg hi] at this
                    · cases hk
                  case bool b => cases hk; exact .bool b
                  all_goals first | cases hk | exact .other _ _ trivial hk
                · cases a
                  case str s =>
                    simp only [keptAddr, Val.bytes.injEq] at hb
                    rw [← hb] at hbe
                    rw [utf8Bytes_inj hbe] at h1
                    exact .inl h1
                  case bytes c =>
                    simp only [keptAddr, Val.bytes.injEq] at hb
                    rw [hb, hbe] at h1
                    exact .inr h1
                  all_goals cases hb
                · simp only [Refs.unwrap, ho]; exact hga
            · cases hq
          · cases h
    · cases h
  · cases h

/-- The dict of a proxy with these three fields and further entries. -/
def proxyDict (addr oid rid : Val) (more : List (Val × Val)) : List (Val × Val) := (.str "rpc_addr", addr) :: (.str "obj_id", oid) :: (.str "ref_id", rid) :: more

/-- **C134 fails**: objects are named by integers that the server handed out, but `True` names object 1 as well (and `1.0`, if Python finds it equal to 1), and the address may be
given as bytes. -/
theorem C134_fails (H : Heap) (f : Val → Except Exc Unit) (popts : Dict String Val) (addr : String) (t : Refs) (o : Obj) (h : t.lookup 1 = .ok o) (rid : Val) :
    decodeLoose H f popts (some (addr, t)) (proxyDict (.str addr) (.bool true) rid []) = .value (H.view o) ∧
    decodeLoose H f popts (some (addr, t)) (proxyDict (.bytes (utf8Bytes addr)) (.bool true) rid []) = .value (H.view o) ∧
    (∀ x, H.numKey (.float x) = .ok (some 1) → decodeLoose H f popts (some (addr, t)) (proxyDict (.str addr) (.float x) rid []) = .value (H.view o)) := by
  have hp : ∀ a oid, looseProxyOf (proxyDict a oid rid []) = .ok ⟨keptAddr a, oid, rid, .str "", []⟩ := by
    intro a oid
    simp [looseProxyOf, proxyDict, proxyAttrs, lookupStr, keyNames, proxyParams]
  refine ⟨?_, ?_, fun x hx => ?_⟩ <;> unfold decodeLoose <;> rw [hp]
  · simp [keptAddr, idKey, h, looseGetattrs]
  · simp [keptAddr, idKey, h, looseGetattrs]
  · simp [keptAddr, idKey, hx, h, looseGetattrs]

/-- **C134** An id of the reader's own server that is in no table is refused without contacting anybody, if no options are given: with KeyError if it is a number, with TypeError if it is null, a
text, bytes, an array or an object. -/
theorem C134_unknown (H : Heap) (f : Val → Except Exc Unit) (addr : String) (t : Refs) (oid rid : Val) :
    (∀ i : Int, oid = .int i → (∀ o, 0 ≤ i → t.lookup i.toNat ≠ .ok o) → decodeLoose H f [] (some (addr, t)) (proxyDict (.str addr) oid rid []) = .raises .keyError) ∧
    ((oid = .none ∨ (∃ s, oid = .str s) ∨ (∃ b, oid = .bytes b) ∨ (∃ l, oid = .list l) ∨ ∃ e, oid = .dict e) →
      decodeLoose H f [] (some (addr, t)) (proxyDict (.str addr) oid rid []) = .raises .typeError) := by
  have hp : looseProxyOf (proxyDict (.str addr) oid rid []) = .ok ⟨.bytes (utf8Bytes addr), oid, rid, .str "", []⟩ := by
    simp [looseProxyOf, proxyDict, proxyAttrs, lookupStr, keyNames, proxyParams, keptAddr]
  have hd : looseOption [] (proxyDict (.str addr) oid rid []) "defer_getattr" = true := by simp [looseOption, proxyDict, lookupStr, Dict.get?]
  have hs : looseOption [] (proxyDict (.str addr) oid rid []) "safe_print" = true := by simp [looseOption, proxyDict, lookupStr, Dict.get?]
  refine ⟨?_, ?_⟩
  · rintro i rfl hi
    unfold decodeLoose
    rw [hp]
    simp only [if_true, idKey]
    by_cases h0 : 0 ≤ i
    · cases hl : t.lookup i.toNat with
      | ok o => exact absurd hl (hi o h0)
      | error e => simp [h0, hl, looseUnknown, hd, hs, asStrs, percentD]
    · simp [h0, looseUnknown, hd, hs, asStrs, percentD]
  · rintro (rfl | ⟨x, rfl⟩ | ⟨x, rfl⟩ | ⟨x, rfl⟩ | ⟨x, rfl⟩) <;> unfold decodeLoose <;> rw [hp] <;> simp [idKey, looseUnknown, hd, hs, asStrs, percentD]

/-- **C134 fails** for what a message may make its reader do: the dict of a proxy of the reader's own server with an id that is in no table, and with an option that is not True, makes the
server, while it reads the request, send a request to itself: for the attribute `obj_id` of that object, or for the text of this attribute. -/
theorem C134_fails_asks (H : Heap) (f : Val → Except Exc Unit) (addr : String) (t : Refs) (n : Nat) (h : ∀ o, t.lookup n ≠ .ok o) (rid v : Val) (hv : v.isTrue = false) :
    decodeLoose H f [] (some (addr, t)) (proxyDict (.str addr) (.int n) rid [(.str "defer_getattr", v)]) = .asks (.int n) [.str "obj_id"] false ∧
    decodeLoose H f [] (some (addr, t)) (proxyDict (.str addr) (.int n) rid [(.str "safe_print", v)]) = .asks (.int n) [.str "obj_id", .str "__repr__"] true := by
  have hp : ∀ k ∈ ["defer_getattr", "safe_print"], looseProxyOf (proxyDict (.str addr) (.int n) rid [(.str k, v)]) = .ok ⟨.bytes (utf8Bytes addr), .int n, rid, .str "", []⟩ := by
    intro k hk
    simp only [List.mem_cons, List.not_mem_nil, or_false] at hk
    rcases hk with rfl | rfl <;> simp [looseProxyOf, proxyDict, proxyAttrs, lookupStr, keyNames, proxyParams, optionNames, keptAddr]
  cases hl : t.lookup n with
  | ok o => exact absurd hl (h o)
  | error e =>
    refine ⟨?_, ?_⟩ <;> unfold decodeLoose <;> rw [hp _ (by simp)]
    · simp [idKey, hl, looseUnknown, looseOption, proxyDict, lookupStr, Dict.get?, hv]
    · simp [idKey, hl, looseUnknown, looseOption, proxyDict, lookupStr, Dict.get?, hv]

/-- **C134** A proxy of another process is kept with its fields as they came, whatever they are, and sent on it has them again: who relays a proxy with strange fields neither refuses nor
mends it. -/
theorem C134_relayed (H : Heap) (f : Val → Except Exc Unit) (popts : Dict String Val) (own : Option (String × Refs)) (d : List (Val × Val)) (q : LooseProxy)
    (h : decodeLoose H f popts own d = .proxy q) :
    ∃ a o r l, lookupStr d "rpc_addr" = some a ∧ lookupStr d "obj_id" = some o ∧ lookupStr d "ref_id" = some r ∧ proxyAttrs d = some l ∧
      q = ⟨keptAddr a, o, r, (lookupStr d "type_str").getD (.str ""), l⟩ ∧
      (∀ s, a = .str s → ∃ d', q.getstate = .ok d' ∧ looseProxyOf d' = .ok q ∧ lookupStr d' "rpc_addr" = some a) := by
  have hun : ∀ q q', looseUnknown f popts d q ≠ .proxy q' := by
    intro q q' hx
    unfold looseUnknown at hx
    repeat' (split at hx)
    all_goals cases hx
  have hq : looseProxyOf d = .ok q := by
    unfold decodeLoose at h
    split at h
    · cases h
    rename_i q' hq'
    rw [hq']
    split at h
    · split at h
      · split at h
        · cases h
        · exact absurd h (hun _ _)
        · split at h
          · exact absurd h (hun _ _)
          · split at h <;> cases h
      · cases h; rfl
    · cases h; rfl
  unfold looseProxyOf at hq
  split at hq
  · cases hq
  rename_i l hl
  split at hq
  · cases hq
  split at hq
  · cases hq
  split at hq
  · rename_i a o r h1 h2 h3
    split at hq
    · cases hq
    · cases hq
      refine ⟨a, o, r, l, h1, h2, h3, hl, rfl, ?_⟩
      rintro s rfl
      refine ⟨_, by simp only [LooseProxy.getstate, keptAddr, utf8Text_bytes]; rfl, ?_, ?_⟩
      · simp [looseProxyOf, proxyAttrs, lookupStr, keyNames, proxyParams, keptAddr, Val.items]
      · simp [lookupStr]
  · cases hq

namespace Ex

/-! ## Concrete cases -/

/-- a server that has handed out objects 70 and 80, under the ids 0 and 1 -/
def looseRefs : Refs := ((Refs.init.step id (.get 70 [])).1.step id (.get 80 [])).1
theorem looseRefs_one : looseRefs.lookup 1 = .ok 80 := rfl
theorem looseRefs_five : ∀ o, looseRefs.lookup 5 ≠ .ok o := by intro o h; cases h
def looseFmt : Val → Except Exc Unit := fun _ => .ok ()

/-- a message of an ordinary proxy: object 1 -/
def looseTyped : List (Val × Val) := proxyDict (.str "tcp://a:1") (.int 1) (.int 0) [(.str "type_str", .str "T"), (.str "attributes", .list [])]
theorem looseTyped_ok : proxyOfDict looseTyped = .ok ⟨"tcp://a:1", 1, 0, "T", []⟩ := by
  simp [looseTyped, proxyDict, proxyOfDict, proxyAttrs, keyNames, lookupStr, proxyParams, Val.asStr?, Val.asNat?, Val.items, asStrs]
example := (C134_agrees heap looseFmt [] (some ("tcp://a:1", looseRefs)) looseTyped _ looseTyped_ok).2.1 looseRefs 80 rfl looseRefs_one
example := (C134_agrees heap looseFmt [] (some ("tcp://b:2", looseRefs)) looseTyped _ looseTyped_ok).1 (by
  intro a t h; cases h; decide)
example := (C134_agrees heap looseFmt [] (some ("tcp://a:1", Refs.init)) looseTyped _ looseTyped_ok).2.2 Refs.init .keyError rfl rfl (by
  intro k hk
  simp only [List.mem_cons, List.not_mem_nil, or_false] at hk
  rcases hk with rfl | rfl <;> exact ⟨rfl, by simp [looseTyped, proxyDict, lookupStr]⟩)
example := C134_fails heap looseFmt [] "tcp://a:1" looseRefs 80 looseRefs_one (.str "any")
example := C134_reaches heap looseFmt [] (some ("tcp://a:1", looseRefs)) _ _ (C134_fails heap looseFmt [] "tcp://a:1" looseRefs 80 looseRefs_one (.str "any")).1
example := (C134_unknown heap looseFmt "tcp://a:1" looseRefs (.int 5) (.int 0)).1 5 rfl fun o _ => looseRefs_five o
example := (C134_unknown heap looseFmt "tcp://a:1" looseRefs (.str "x") (.int 0)).2 (.inr (.inl ⟨"x", rfl⟩))
example := C134_fails_asks heap looseFmt "tcp://a:1" looseRefs 5 looseRefs_five (.int 0) (.bool false) rfl
/-- a proxy of another process whose id is a list is kept -/
def looseOdd : List (Val × Val) := proxyDict (.str "tcp://b:2") (.list [.int 1]) .none [(.str "attributes", .list [.int 3])]
theorem looseOdd_kept : decodeLoose heap looseFmt [] (some ("tcp://a:1", looseRefs)) looseOdd = .proxy ⟨.bytes (utf8Bytes "tcp://b:2"), .list [.int 1], .none, .str "", [.int 3]⟩ := by
  have hp : looseProxyOf looseOdd = .ok ⟨.bytes (utf8Bytes "tcp://b:2"), .list [.int 1], .none, .str "", [.int 3]⟩ := by
    simp [looseProxyOf, looseOdd, proxyDict, proxyAttrs, lookupStr, keyNames, proxyParams, keptAddr, Val.items]
  unfold decodeLoose
  rw [hp]
  simp only
  rw [if_neg]
  intro h
  exact absurd (utf8Bytes_inj h) (by decide)
example := C134_relayed heap looseFmt [] (some ("tcp://a:1", looseRefs)) looseOdd _ looseOdd_kept

end Ex

end Verif
