import Verif.Spec.Asks
import Verif.Proof.Exec
/-! # Requests made while a message is read -/
namespace Verif

/-! ## Up to the first request, reading is reading -/

theorem shapeAsk_error {b : Except Exc Bytes} {dt : Except Exc DType} {sh : Option Val} {a : Ask}
    (h : shapeAsk b dt sh = some a) : ∃ e, buildArray b dt sh = .error e := by
  cases hb : buildArray b dt sh with
  | error e => exact ⟨e, rfl⟩
  | ok v =>
    exfalso
    cases sh with
    | none => cases h
    | some sv =>
      cases sv
      case proxy p =>
        have hn : ∀ n, (Val.proxy p).shapeOf n = none := fun _ => rfl
        unfold buildArray at hb
        simp only [hn] at hb
        repeat' split at hb
        all_goals cases hb
      all_goals cases h

theorem decodeArray_ask {R : RecvEnv} {d : List (Val × Val)} {a : Ask} (h : arrayAsk R d = some a) :
    ∃ e, decodeArray R d = .error e := by
  unfold arrayAsk at h
  unfold decodeArray need
  cases h1 : lookupStr d "dtype" with
  | none => exact ⟨_, rfl⟩
  | some x =>
    rw [h1] at h
    cases x
    case proxy p => exact ⟨_, rfl⟩
    case str s =>
      simp only at h ⊢
      cases h2 : lookupStr d "data" with
      | none => exact ⟨_, rfl⟩
      | some v => rw [h2] at h; exact shapeAsk_error h
    all_goals cases h

theorem proxyOfDict_ask {d : List (Val × Val)} {p : Proxy}
    (h : (lookupStr d "attributes").bind Val.proxy? = some p ∨ (lookupStr d "rpc_addr").bind Val.proxy? = some p) :
    ∃ e, proxyOfDict d = .error e := by
  cases hx : proxyOfDict d with
  | error e => exact ⟨e, rfl⟩
  | ok q =>
    exfalso
    unfold proxyOfDict at hx
    split at hx
    · cases hx
    rename_i h0
    split at hx
    · cases hx
    split at hx
    · cases hx
    split at hx
    · rename_i h1 _ _
      split at hx
      · cases hx
      rcases h with h | h
      · cases ha : lookupStr d "attributes" with
        | none => rw [ha] at h; cases h
        | some x =>
          unfold proxyAttrs at h0
          rw [ha] at h h0
          cases x
          case proxy p => simp [Val.items] at h0
          all_goals cases h
      · cases ha : lookupStr d "rpc_addr" with
        | none => rw [ha] at h; cases h
        | some x =>
          rw [ha] at h h1
          cases x
          case proxy p => simp [Val.asStr?] at h1
          all_goals cases h
    · cases hx

theorem decodeProxy_ask {R : RecvEnv} {d : List (Val × Val)} {a : Ask} (h : proxyAsk R d = some a) :
    ∃ e, decodeProxy R d = .error e := by
  have : ∃ e, proxyOfDict d = .error e := by
    unfold proxyAsk at h
    split at h
    · rename_i h1; exact proxyOfDict_ask (.inl h1)
    · split at h
      · rename_i h1 h2; exact proxyOfDict_ask (.inr h2)
      · cases h
  obtain ⟨e, he⟩ := this
  exact ⟨e, by unfold decodeProxy; rw [he]⟩

/-- Where a request is made, the model of `decode` without requests has an exception. -/
theorem decode_ask {R : RecvEnv} {d : List (Val × Val)} {a : Ask} (h : decodeAsk R d = some a) :
    ∃ e, decode R d = .error e := by
  unfold decodeAsk at h
  unfold decode
  cases h1 : lookupStr d encodeKey with
  | none => rw [h1] at h; cases h
  | some tn =>
    rw [h1] at h
    cases tn
    case proxy p => exact ⟨_, rfl⟩
    case none => cases h
    all_goals
      simp only at h ⊢
      split at h
      · rename_i h2; simp only [h2]; exact decodeArray_ask h
      · rename_i h2; simp only [h2]
        unfold numberAsk at h
        unfold need
        split at h
        · rename_i h3 _; rw [h3]; exact ⟨_, rfl⟩
        · cases h
      · rename_i h2; simp only [h2]
        unfold tupleAsk at h
        unfold need
        split at h
        · rename_i h3; rw [h3]; exact ⟨_, rfl⟩
        · cases h
      · rename_i h2; simp only [h2]; exact decodeProxy_ask h
      · cases h

theorem jdecode_ask {R : RecvEnv} {d : List (Val × Val)} {a : Ask} (h : jdecodeAsk R d = some a) :
    ∃ e, jdecode R d = .error e := by
  unfold jdecodeAsk at h
  unfold jdecode
  split at h
  · rename_i h1
    rw [h1]
    simp only
    split at h
    · rename_i v dt h2 h3
      simp only [need, h2, h3]
      cases hv : v.b64 with
      | error e => exact ⟨e, rfl⟩
      | ok b => rw [hv] at h; exact shapeAsk_error h
    · cases h
  · cases h
  · rename_i x h1 h2
    have := decode_ask h
    split
    · rename_i h3; exact absurd h3 h1
    · rename_i h3; exact absurd h3 h2
    · exact this

/-- What a reading that may ask says about the plain one. -/
def ReadsAs {α : Type} (x : Reading α) (y : Except Exc α) : Prop :=
  match x with
  | .asks _ => ∃ e, y = .error e
  | .done x => x = y

theorem decode_reads (R : RecvEnv) (d : List (Val × Val)) : ReadsAs (decodeQ R d) (decode R d) := by
  unfold decodeQ
  cases h : decodeAsk R d with
  | none => rfl
  | some a => exact decode_ask h

theorem jdecode_reads (R : RecvEnv) (d : List (Val × Val)) : ReadsAs (jdecodeQ R d) (jdecode R d) := by
  unfold jdecodeQ
  cases h : jdecodeAsk R d with
  | none => rfl
  | some a => exact jdecode_ask h

mutual
theorem unpack_reads (R : RecvEnv) : ∀ w, ReadsAs (unpackQ R w) (unpack R w)
  | .nil | .bool _ | .int _ | .float _ | .str _ | .bin _ => rfl
  | .arr l => by
    have h := unpackL_reads R l
    simp only [unpackQ, unpack]
    rcases hx : unpackQL R l with a | (e | vs) <;> rw [hx] at h
    · obtain ⟨e, he⟩ := h; rw [he]; exact ⟨e, rfl⟩
    · rw [← show _ = unpackL R l from h]; rfl
    · rw [← show _ = unpackL R l from h]; rfl
  | .map m => by
    have h := unpackM_reads R m
    simp only [unpackQ, unpack]
    rcases hx : unpackQM R m with a | (e | vs) <;> rw [hx] at h
    · obtain ⟨e, he⟩ := h; rw [he]; exact ⟨e, rfl⟩
    · rw [← show _ = unpackM R m from h]; rfl
    · rw [← show _ = unpackM R m from h]; exact decode_reads R _
theorem unpackL_reads (R : RecvEnv) : ∀ l, ReadsAs (unpackQL R l) (unpackL R l)
  | [] => rfl
  | w :: ws => by
    have h := unpack_reads R w
    have h' := unpackL_reads R ws
    simp only [unpackQL, unpackL]
    rcases hx : unpackQ R w with a | (e | v) <;> rw [hx] at h
    · obtain ⟨e, he⟩ := h; rw [he]; exact ⟨e, rfl⟩
    · rw [← show _ = unpack R w from h]; rfl
    · rw [← show _ = unpack R w from h]
      simp only
      rcases hy : unpackQL R ws with a | (e | vs) <;> rw [hy] at h'
      · obtain ⟨e, he⟩ := h'; rw [he]; exact ⟨e, rfl⟩
      · rw [← show _ = unpackL R ws from h']; rfl
      · rw [← show _ = unpackL R ws from h']; rfl
theorem unpackM_reads (R : RecvEnv) : ∀ m, ReadsAs (unpackQM R m) (unpackM R m)
  | [] => rfl
  | (k, w) :: r => by
    have h0 := unpack_reads R k
    have h := unpack_reads R w
    have h' := unpackM_reads R r
    simp only [unpackQM, unpackM]
    rcases hk : unpackQ R k with a | (e | kv) <;> rw [hk] at h0
    · obtain ⟨e, he⟩ := h0; rw [he]; exact ⟨e, rfl⟩
    · rw [← show _ = unpack R k from h0]; rfl
    · rw [← show _ = unpack R k from h0]
      simp only
      split
      · rfl
      rcases hx : unpackQ R w with a | (e | v) <;> rw [hx] at h
      · obtain ⟨e, he⟩ := h; rw [he]; exact ⟨e, rfl⟩
      · rw [← show _ = unpack R w from h]; rfl
      · rw [← show _ = unpack R w from h]
        simp only
        rcases hy : unpackQM R r with a | (e | vs) <;> rw [hy] at h'
        · obtain ⟨e, he⟩ := h'; rw [he]; exact ⟨e, rfl⟩
        · rw [← show _ = unpackM R r from h']; rfl
        · rw [← show _ = unpackM R r from h']; rfl
end

mutual
theorem junpack_reads (R : RecvEnv) : ∀ w, ReadsAs (junpackQ R w) (junpack R w)
  | .nil | .bool _ | .int _ | .float _ | .str _ | .bin _ => rfl
  | .arr l => by
    have h := junpackL_reads R l
    simp only [junpackQ, junpack]
    rcases hx : junpackQL R l with a | (e | vs) <;> rw [hx] at h
    · obtain ⟨e, he⟩ := h; rw [he]; exact ⟨e, rfl⟩
    · rw [← show _ = junpackL R l from h]; rfl
    · rw [← show _ = junpackL R l from h]; rfl
  | .map m => by
    have h := junpackM_reads R m
    simp only [junpackQ, junpack]
    rcases hx : junpackQM R m with a | (e | vs) <;> rw [hx] at h
    · obtain ⟨e, he⟩ := h; rw [he]; exact ⟨e, rfl⟩
    · rw [← show _ = junpackM R m from h]; rfl
    · rw [← show _ = junpackM R m from h]; exact jdecode_reads R _
theorem junpackL_reads (R : RecvEnv) : ∀ l, ReadsAs (junpackQL R l) (junpackL R l)
  | [] => rfl
  | w :: ws => by
    have h := junpack_reads R w
    have h' := junpackL_reads R ws
    simp only [junpackQL, junpackL]
    rcases hx : junpackQ R w with a | (e | v) <;> rw [hx] at h
    · obtain ⟨e, he⟩ := h; rw [he]; exact ⟨e, rfl⟩
    · rw [← show _ = junpack R w from h]; rfl
    · rw [← show _ = junpack R w from h]
      simp only
      rcases hy : junpackQL R ws with a | (e | vs) <;> rw [hy] at h'
      · obtain ⟨e, he⟩ := h'; rw [he]; exact ⟨e, rfl⟩
      · rw [← show _ = junpackL R ws from h']; rfl
      · rw [← show _ = junpackL R ws from h']; rfl
theorem junpackM_reads (R : RecvEnv) : ∀ m, ReadsAs (junpackQM R m) (junpackM R m)
  | [] => rfl
  | (k, w) :: r => by
    have h := junpack_reads R w
    have h' := junpackM_reads R r
    cases k
    case str k =>
      simp only [junpackQM, junpackM]
      rcases hx : junpackQ R w with a | (e | v) <;> rw [hx] at h
      · obtain ⟨e, he⟩ := h; rw [he]; exact ⟨e, rfl⟩
      · rw [← show _ = junpack R w from h]; rfl
      · rw [← show _ = junpack R w from h]
        simp only
        rcases hy : junpackQM R r with a | (e | vs) <;> rw [hy] at h'
        · obtain ⟨e, he⟩ := h'; rw [he]; exact ⟨e, rfl⟩
        · rw [← show _ = junpackM R r from h']; rfl
        · rw [← show _ = junpackM R r from h']; rfl
    all_goals rfl
end

theorem reads_ok {α : Type} {x : Reading α} {y : Except Exc α} {v : α} (h : ReadsAs x y) (hy : y = .ok v) : x = .done (.ok v) := by
  cases x with
  | asks a => obtain ⟨e, he⟩ := h; rw [he] at hy; cases hy
  | done x => rw [show x = y from h, hy]

/-! ## What is asked is in the message -/

theorem lookupStr_mem_val {d : List (Val × Val)} {k : String} {v : Val} (h : lookupStr d k = some v) : ∃ e ∈ d, e.2 = v := by
  exact ⟨_, lookupStr_mem h, rfl⟩

theorem removeStr_mem {d : List (Val × Val)} {k : String} {e : Val × Val} (h : e ∈ removeStr d k) : e ∈ d := by
  induction d using removeStr.induct (k := k) with
  | case1 => exact h
  | case2 v r ih =>
    simp only [removeStr, if_true] at h
    exact List.mem_cons_of_mem _ (ih h)
  | case3 s v r hs ih =>
    simp only [removeStr, hs, if_false] at h
    rcases List.mem_cons.1 h with rfl | h
    · exact List.mem_cons_self
    · exact List.mem_cons_of_mem _ (ih h)
  | case4 x r hx ih =>
    rw [removeStr.eq_3 _ _ _ (by simpa using hx)] at h
    rcases List.mem_cons.1 h with rfl | h
    · exact List.mem_cons_self
    · exact List.mem_cons_of_mem _ (ih h)

theorem proxy?_eq {x : Option Val} {p : Proxy} (h : x.bind Val.proxy? = some p) : x = some (.proxy p) := by
  cases x with
  | none => cases h
  | some v => cases v <;> first | (cases h; rfl) | cases h

theorem shapeAsk_field {b : Except Exc Bytes} {dt : Except Exc DType} {sh : Option Val} {a : Ask}
    (h : shapeAsk b dt sh = some a) : sh = some (.proxy a.proxy) := by
  unfold shapeAsk at h
  split at h
  · cases h
  · rename_i p hp
    split at h
    · cases h; exact proxy?_eq hp
    · cases h

/-- The proxy asked is a field of the dict. -/
theorem decodeAsk_field {R : RecvEnv} {d : List (Val × Val)} {a : Ask} (h : decodeAsk R d = some a) :
    ∃ e ∈ d, e.2 = .proxy a.proxy := by
  have key : ∀ k, lookupStr (removeStr d encodeKey) k = some (.proxy a.proxy) → ∃ e ∈ d, e.2 = .proxy a.proxy := by
    intro k hk
    obtain ⟨e, he, h2⟩ := lookupStr_mem_val hk
    exact ⟨e, removeStr_mem he, h2⟩
  unfold decodeAsk at h
  cases h1 : lookupStr d encodeKey with
  | none => rw [h1] at h; cases h
  | some tn =>
    rw [h1] at h
    cases tn
    case proxy p => cases h; exact lookupStr_mem_val h1
    case none => cases h
    all_goals
      simp only at h
      split at h
      · unfold arrayAsk at h
        split at h
        · rename_i h2; cases h; exact key _ h2
        · split at h
          · exact key _ (shapeAsk_field h)
          · cases h
        · cases h
      · unfold numberAsk at h
        split at h
        · rename_i h2 _; cases h; exact key _ h2
        · cases h
      · unfold tupleAsk at h
        split at h
        · rename_i h2; cases h; exact key _ h2
        · cases h
      · unfold proxyAsk at h
        split at h
        · rename_i h2; cases h; exact key _ (proxy?_eq h2)
        · split at h
          · rename_i h2
            split at h
            · cases h; exact key _ (proxy?_eq h2)
            · cases h
          · cases h
      · cases h

theorem jdecodeAsk_field {R : RecvEnv} {d : List (Val × Val)} {a : Ask} (h : jdecodeAsk R d = some a) :
    ∃ e ∈ d, e.2 = .proxy a.proxy := by
  unfold jdecodeAsk at h
  split at h
  · split at h
    · exact lookupStr_mem_val (shapeAsk_field h)
    · cases h
  · cases h
  · exact decodeAsk_field h

/-! ## What `decode` makes -/

/-- Neither a text nor a proxy. -/
def Val.inert (v : Val) : Prop := v.text? = Option.none ∧ v.proxy? = Option.none

theorem npMake_inert {L : Lib} {dt : DType} {v w : Val} (h : npMake L dt v = .ok w) : w.inert := by
  unfold npMake at h
  split at h <;> cases h <;> exact ⟨rfl, rfl⟩

theorem buildArray_inert {b : Except Exc Bytes} {dt : Except Exc DType} {sh : Option Val} {w : Val} (h : buildArray b dt sh = .ok w) :
    w.inert := by
  unfold buildArray at h
  repeat' split at h
  all_goals cases h
  exact ⟨rfl, rfl⟩

theorem decodeArray_inert {R : RecvEnv} {d : List (Val × Val)} {w : Val} (h : decodeArray R d = .ok w) : w.inert := by
  unfold decodeArray at h
  split at h
  · cases h
  · split at h
    · cases h
    · exact buildArray_inert h
  · cases h
  · cases h

/-- Texts and proxies come from pickles and from the proxy branch only. -/
theorem decode_kind {R : RecvEnv} {d : List (Val × Val)} {v : Val} (h : decode R d = .ok v) :
    v.inert ∨ (lookupStr d encodeKey).bind Val.text? = some "pickle" ∨
      (lookupStr d encodeKey).bind Val.text? = some "proxy" ∧ decodeProxy R (removeStr d encodeKey) = .ok v := by
  unfold decode at h
  cases hl : lookupStr d encodeKey with
  | none => rw [hl] at h; cases h; exact .inl ⟨rfl, rfl⟩
  | some tn =>
    rw [hl] at h
    simp only [Option.bind_some]
    have key : ∀ x : Option String, ∀ d : List (Val × Val),
        (match x with
          | some "ndarray" => decodeArray R d
          | some "pickle" =>
            match need d "pickle_str" with
            | .ok (.bytes b) => R.lib.pickleLoads b
            | .ok _ => .error .typeError
            | .error e => .error e
          | some "np_number" =>
            match need d "dtype" with
            | .ok (.dtype dt) =>
              match need d "value" with
              | .ok v => npMake R.lib dt v
              | .error e => .error e
            | .ok _ => .error .attributeError
            | .error e => .error e
          | some "datetime" =>
            match need d "data" with
            | .ok (.str s) =>
              match parseDateTime s.toList with
              | .ok t => .ok (.datetime t)
              | .error e => .error e
            | .ok _ => .error .typeError
            | .error e => .error e
          | some "date" =>
            match need d "data" with
            | .ok (.str s) =>
              match parseDate s.toList with
              | .ok t => .ok (.date t)
              | .error e => .error e
            | .ok _ => .error .typeError
            | .error e => .error e
          | some "tuple" =>
            match need d "data" with
            | .ok v =>
              match v.items with
              | some l => .ok (.tuple l)
              | none => .error .typeError
            | .error e => .error e
          | some "none" => .ok .none
          | some "proxy" => decodeProxy R d
          | _ => .ok (.dict d)) = Except.ok v →
          v.inert ∨ x = some "pickle" ∨ x = some "proxy" ∧ decodeProxy R d = .ok v := by
      intro x d h
      split at h
      · exact .inl (decodeArray_inert h)
      · exact .inr (.inl rfl)
      · repeat' split at h
        all_goals first | exact .inl (npMake_inert h) | cases h
      · repeat' split at h
        all_goals cases h
        exact .inl ⟨rfl, rfl⟩
      · repeat' split at h
        all_goals cases h
        exact .inl ⟨rfl, rfl⟩
      · repeat' split at h
        all_goals cases h
        exact .inl ⟨rfl, rfl⟩
      · cases h; exact .inl ⟨rfl, rfl⟩
      · exact .inr (.inr ⟨rfl, h⟩)
      · cases h; exact .inl ⟨rfl, rfl⟩
    cases tn
    case none => cases h; exact .inl ⟨rfl, rfl⟩
    case proxy => cases h
    all_goals exact key _ _ h

theorem jdecode_kind {R : RecvEnv} {d : List (Val × Val)} {v : Val} (h : jdecode R d = .ok v) :
    v.inert ∨ (lookupStr d encodeKey).bind Val.text? = some "pickle" ∨
      (lookupStr d encodeKey).bind Val.text? = some "proxy" ∧ decodeProxy R (removeStr d encodeKey) = .ok v := by
  unfold jdecode at h
  split at h
  · repeat' split at h
    all_goals first | exact .inl (buildArray_inert h) | cases h
  · repeat' split at h
    all_goals cases h
    exact .inl ⟨rfl, rfl⟩
  · exact decode_kind h

/-! ## An invariant of reading

`Q` holds of the message and its parts, `top` of the values of its maps; then the values of the dicts that `decode` sees
satisfy `P` and every request satisfies `G`. -/

structure AskInv (Q top : Wire → Prop) (P : Val → Prop) (G : Ask → Prop) (ask : List (Val × Val) → Option Ask)
    (dec : List (Val × Val) → Except Exc Val) : Prop where
  arr : ∀ l, Q (.arr l) → ∀ w ∈ l, Q w
  map : ∀ m, Q (.map m) → ∀ e ∈ m, Q e.1 ∧ Q e.2 ∧ top e.2
  str : ∀ s, Q (.str s) → top (.str s) → P (.str s)
  inert : ∀ v : Val, v.inert → P v
  asks : ∀ d, (∀ e ∈ d, P e.2) → ∀ a, ask d = some a → G a
  decodes : ∀ d, (∀ e ∈ d, P e.2) → ∀ v, dec d = .ok v → P v

mutual
theorem unpackQ_inv {R : RecvEnv} {Q top : Wire → Prop} {P : Val → Prop} {G : Ask → Prop}
    (H : AskInv Q top P G (decodeAsk R) (decode R)) :
    ∀ w, Q w → (∀ a, unpackQ R w = .asks a → G a) ∧ (top w → ∀ v, unpackQ R w = .done (.ok v) → P v)
  | .nil, _ | .bool _, _ | .int _, _ | .float _, _ => by
    refine ⟨(fun a h => by cases h), fun _ v h => ?_⟩
    cases h; exact H.inert _ ⟨rfl, rfl⟩
  | .bin b, _ => by
    refine ⟨(fun a h => by cases h), fun _ v h => ?_⟩
    cases h
    exact H.inert _ ⟨rfl, rfl⟩
  | .str s, hq => by
    refine ⟨(fun a h => by cases h), fun ht v h => ?_⟩
    cases h; exact H.str s hq ht
  | .arr l, hq => by
    have h1 := unpackQL_inv H l (H.arr l hq)
    simp only [unpackQ]
    rcases hx : unpackQL R l with a | (e | vs) <;> rw [hx] at h1 <;> simp only
    · exact ⟨(fun a h => by cases h; exact h1 _ rfl), fun _ v h => by cases h⟩
    · exact ⟨(fun a h => by cases h), fun _ v h => by cases h⟩
    · exact ⟨(fun a h => by cases h), fun _ v h => by cases h; exact H.inert _ ⟨rfl, rfl⟩⟩
  | .map m, hq => by
    have h1 := unpackQM_inv H m (H.map m hq)
    simp only [unpackQ]
    rcases hx : unpackQM R m with a | (e | d) <;> rw [hx] at h1 <;> simp only
    · exact ⟨(fun a h => by cases h; exact h1.1 _ rfl), fun _ v h => by cases h⟩
    · exact ⟨(fun a h => by cases h), fun _ v h => by cases h⟩
    · have h2 := dictOf_values (h1.2 d rfl)
      unfold decodeQ
      cases ha : decodeAsk R (dictOf d) with
      | some a => exact ⟨(fun a h => by cases h; exact H.asks _ h2 _ ha), fun _ v h => by cases h⟩
      | none =>
        refine ⟨(fun a h => by cases h), fun _ v h => ?_⟩
        simp only [Reading.done.injEq] at h
        exact H.decodes _ h2 v h
theorem unpackQL_inv {R : RecvEnv} {Q top : Wire → Prop} {P : Val → Prop} {G : Ask → Prop}
    (H : AskInv Q top P G (decodeAsk R) (decode R)) :
    ∀ l, (∀ w ∈ l, Q w) → ∀ a, unpackQL R l = .asks a → G a
  | [], _, a, h => by cases h
  | w :: ws, hq, a, h => by
    have h1 := (unpackQ_inv H w (hq w (by simp))).1
    have h2 := unpackQL_inv H ws (fun w hw => hq w (by simp [hw]))
    simp only [unpackQL] at h
    rcases hx : unpackQ R w with a' | (e | v) <;> rw [hx] at h h1 <;> simp only at h
    · cases h; exact h1 _ rfl
    · cases h
    · rcases hy : unpackQL R ws with a' | (e | v) <;> rw [hy] at h h2 <;> simp only at h
      · cases h; exact h2 _ rfl
      · cases h
      · cases h
theorem unpackQM_inv {R : RecvEnv} {Q top : Wire → Prop} {P : Val → Prop} {G : Ask → Prop}
    (H : AskInv Q top P G (decodeAsk R) (decode R)) :
    ∀ m : List (Wire × Wire), (∀ e ∈ m, Q e.1 ∧ Q e.2 ∧ top e.2) → (∀ a, unpackQM R m = .asks a → G a) ∧
      ∀ d, unpackQM R m = .done (.ok d) → ∀ e ∈ d, P e.2
  | [], _ => ⟨(fun a h => by cases h), fun d h => by cases h; simp⟩
  | (k, w) :: r, hq => by
    have h0 := (unpackQ_inv H k (hq (k, w) (by simp)).1).1
    have h1 := unpackQ_inv H w (hq (k, w) (by simp)).2.1
    have ht := (hq (k, w) (by simp)).2.2
    have h2 := unpackQM_inv H r (fun e he => hq e (by simp [he]))
    simp only [unpackQM]
    rcases hk : unpackQ R k with a | (e | kv) <;> rw [hk] at h0 <;> simp only
    · exact ⟨(fun a h => by cases h; exact h0 _ rfl), fun d h => by cases h⟩
    · exact ⟨(fun a h => by cases h), fun d h => by cases h⟩
    · split
      · exact ⟨(fun a h => by cases h), fun d h => by cases h⟩
      · rcases hx : unpackQ R w with a | (e | v) <;> rw [hx] at h1 <;> simp only
        · exact ⟨(fun a h => by cases h; exact h1.1 _ rfl), fun d h => by cases h⟩
        · exact ⟨(fun a h => by cases h), fun d h => by cases h⟩
        · rcases hy : unpackQM R r with a | (e | d') <;> rw [hy] at h2 <;> simp only
          · exact ⟨(fun a h => by cases h; exact h2.1 _ rfl), fun d h => by cases h⟩
          · exact ⟨(fun a h => by cases h), fun d h => by cases h⟩
          · refine ⟨(fun a h => by cases h), fun d h => ?_⟩
            cases h
            intro e he
            rcases List.mem_cons.1 he with rfl | he
            · exact h1.2 ht v rfl
            · exact h2.2 d' rfl e he
end

mutual
theorem junpackQ_inv {R : RecvEnv} {Q top : Wire → Prop} {P : Val → Prop} {G : Ask → Prop}
    (H : AskInv Q top P G (jdecodeAsk R) (jdecode R)) :
    ∀ w, Q w → (∀ a, junpackQ R w = .asks a → G a) ∧ (top w → ∀ v, junpackQ R w = .done (.ok v) → P v)
  | .nil, _ | .bool _, _ | .int _, _ | .float _, _ => by
    refine ⟨(fun a h => by cases h), fun _ v h => ?_⟩
    cases h; exact H.inert _ ⟨rfl, rfl⟩
  | .bin b, _ => by
    refine ⟨(fun a h => by cases h), fun _ v h => ?_⟩
    cases h
  | .str s, hq => by
    refine ⟨(fun a h => by cases h), fun ht v h => ?_⟩
    cases h; exact H.str s hq ht
  | .arr l, hq => by
    have h1 := junpackQL_inv H l (H.arr l hq)
    simp only [junpackQ]
    rcases hx : junpackQL R l with a | (e | vs) <;> rw [hx] at h1 <;> simp only
    · exact ⟨(fun a h => by cases h; exact h1 _ rfl), fun _ v h => by cases h⟩
    · exact ⟨(fun a h => by cases h), fun _ v h => by cases h⟩
    · exact ⟨(fun a h => by cases h), fun _ v h => by cases h; exact H.inert _ ⟨rfl, rfl⟩⟩
  | .map m, hq => by
    have h1 := junpackQM_inv H m (H.map m hq)
    simp only [junpackQ]
    rcases hx : junpackQM R m with a | (e | d) <;> rw [hx] at h1 <;> simp only
    · exact ⟨(fun a h => by cases h; exact h1.1 _ rfl), fun _ v h => by cases h⟩
    · exact ⟨(fun a h => by cases h), fun _ v h => by cases h⟩
    · have h2 := dictOf_values (h1.2 d rfl)
      unfold jdecodeQ
      cases ha : jdecodeAsk R (dictOf d) with
      | some a => exact ⟨(fun a h => by cases h; exact H.asks _ h2 _ ha), fun _ v h => by cases h⟩
      | none =>
        refine ⟨(fun a h => by cases h), fun _ v h => ?_⟩
        simp only [Reading.done.injEq] at h
        exact H.decodes _ h2 v h
theorem junpackQL_inv {R : RecvEnv} {Q top : Wire → Prop} {P : Val → Prop} {G : Ask → Prop}
    (H : AskInv Q top P G (jdecodeAsk R) (jdecode R)) :
    ∀ l, (∀ w ∈ l, Q w) → ∀ a, junpackQL R l = .asks a → G a
  | [], _, a, h => by cases h
  | w :: ws, hq, a, h => by
    have h1 := (junpackQ_inv H w (hq w (by simp))).1
    have h2 := junpackQL_inv H ws (fun w hw => hq w (by simp [hw]))
    simp only [junpackQL] at h
    rcases hx : junpackQ R w with a' | (e | v) <;> rw [hx] at h h1 <;> simp only at h
    · cases h; exact h1 _ rfl
    · cases h
    · rcases hy : junpackQL R ws with a' | (e | v) <;> rw [hy] at h h2 <;> simp only at h
      · cases h; exact h2 _ rfl
      · cases h
      · cases h
theorem junpackQM_inv {R : RecvEnv} {Q top : Wire → Prop} {P : Val → Prop} {G : Ask → Prop}
    (H : AskInv Q top P G (jdecodeAsk R) (jdecode R)) :
    ∀ m : List (Wire × Wire), (∀ e ∈ m, Q e.1 ∧ Q e.2 ∧ top e.2) → (∀ a, junpackQM R m = .asks a → G a) ∧
      ∀ d, junpackQM R m = .done (.ok d) → ∀ e ∈ d, P e.2
  | [], _ => ⟨(fun a h => by cases h), fun d h => by cases h; simp⟩
  | (k, w) :: r, hq => by
    have h0 := (junpackQ_inv H k (hq (k, w) (by simp)).1).1
    have h1 := junpackQ_inv H w (hq (k, w) (by simp)).2.1
    have ht := (hq (k, w) (by simp)).2.2
    have h2 := junpackQM_inv H r (fun e he => hq e (by simp [he]))
    cases k
    case str k =>
      simp only [junpackQM]
      rcases hx : junpackQ R w with a | (e | v) <;> rw [hx] at h1 <;> simp only
      · exact ⟨(fun a h => by cases h; exact h1.1 _ rfl), fun d h => by cases h⟩
      · exact ⟨(fun a h => by cases h), fun d h => by cases h⟩
      · rcases hy : junpackQM R r with a | (e | d') <;> rw [hy] at h2 <;> simp only
        · exact ⟨(fun a h => by cases h; exact h2.1 _ rfl), fun d h => by cases h⟩
        · exact ⟨(fun a h => by cases h), fun d h => by cases h⟩
        · refine ⟨(fun a h => by cases h), fun d h => ?_⟩
          cases h
          intro e he
          rcases List.mem_cons.1 he with rfl | he
          · exact h1.2 ht v rfl
          · exact h2.2 d' rfl e he
    all_goals exact ⟨(fun a h => by cases h), fun d h => by cases h⟩
end

/-! ## Two instances -/

theorem quietL_mem {bad : List String} : ∀ {l : List Wire}, Wire.quietL bad l = true → ∀ w ∈ l, w.quiet bad = true
  | [], _, _, hw => by cases hw
  | w :: ws, h, x, hx => by
    simp only [Wire.quietL, Bool.and_eq_true] at h
    rcases List.mem_cons.1 hx with rfl | hx
    · exact h.1
    · exact quietL_mem h.2 x hx

theorem quietM_mem {bad : List String} : ∀ {m : List (Wire × Wire)}, Wire.quietM bad m = true →
    ∀ e ∈ m, e.1.quiet bad = true ∧ e.2.quiet bad = true ∧ e.2.isText bad = false
  | [], _, _, hw => by cases hw
  | (k, w) :: r, h, x, hx => by
    simp only [Wire.quietM, Bool.and_eq_true, Bool.not_eq_true'] at h
    rcases List.mem_cons.1 hx with rfl | hx
    · exact ⟨h.1.1.1, h.1.1.2, h.1.2⟩
    · exact quietM_mem h.2 x hx

theorem str_notText {bad : List String} {s : String} (hs : (Wire.str s).isText bad = false) : (Val.str s).notText bad := by
  intro x hx hc
  have : s = x := by simpa [Val.text?, Val.core] using hc
  subst this
  simp [Wire.isText] at hs
  exact hs hx

/-- Messages without the texts `proxy` and `pickle` as values. -/
theorem askInv_harmless {ask : List (Val × Val) → Option Ask} {dec : List (Val × Val) → Except Exc Val} {R : RecvEnv}
    (hf : ∀ d a, ask d = some a → ∃ e ∈ d, e.2 = .proxy a.proxy)
    (hk : ∀ d v, dec d = .ok v → v.inert ∨ (lookupStr d encodeKey).bind Val.text? = some "pickle" ∨
      (lookupStr d encodeKey).bind Val.text? = some "proxy" ∧ decodeProxy R (removeStr d encodeKey) = .ok v) :
    AskInv (fun w => w.quiet ["proxy", "pickle"] = true) (fun w => w.isText ["proxy", "pickle"] = false)
      (fun v => v.notText ["proxy", "pickle"] ∧ v.proxy? = none) (fun _ => False) ask dec where
  arr l h := quietL_mem (by simpa [Wire.quiet] using h)
  map m h := quietM_mem (by simpa [Wire.quiet] using h)
  str s _ h := ⟨str_notText h, rfl⟩
  inert v h := ⟨notText_of h.1, h.2⟩
  asks d h a ha := by
    obtain ⟨e, he, h2⟩ := hf d a ha
    have := (h e he).2
    rw [h2] at this; cases this
  decodes d h v hv := by
    have ht : ∀ e ∈ d, e.2.notText ["proxy", "pickle"] := fun e he => (h e he).1
    rcases hk d v hv with h1 | h1 | ⟨h1, _⟩
    · exact ⟨notText_of h1.1, h1.2⟩
    · exact absurd h1 (tag_notText ht "pickle" (by simp))
    · exact absurd h1 (tag_notText ht "proxy" (by simp))

theorem proxyOfDict_addr {d : List (Val × Val)} {p : Proxy} (h : proxyOfDict d = .ok p) :
    lookupStr d "rpc_addr" = some (.str p.addr) := by
  unfold proxyOfDict at h
  split at h
  · cases h
  split at h
  · cases h
  split at h
  · cases h
  split at h
  · rename_i h1 _ _
    split at h
    · cases h
    split at h
    · cases h
      cases hx : lookupStr d "rpc_addr" with
      | none => rw [hx] at h1; cases h1
      | some x =>
        rw [hx] at h1
        cases x <;> first | (simp [Val.asStr?] at h1; rw [h1]) | (simp [Val.asStr?] at h1)
    · cases h
  · cases h

/-- Messages without pickles, read where neither texts nor proxies are served: proxies have addresses of the message. -/
theorem askInv_addressed {ask : List (Val × Val) → Option Ask} {dec : List (Val × Val) → Except Exc Val} {R : RecvEnv}
    (hR : R.servesPlain) (T : String → Prop)
    (hf : ∀ d a, ask d = some a → ∃ e ∈ d, e.2 = .proxy a.proxy)
    (hk : ∀ d v, dec d = .ok v → v.inert ∨ (lookupStr d encodeKey).bind Val.text? = some "pickle" ∨
      (lookupStr d encodeKey).bind Val.text? = some "proxy" ∧ decodeProxy R (removeStr d encodeKey) = .ok v) :
    AskInv (fun w => w.quiet ["pickle"] = true ∧ ∀ s, w.Mentions s → T s) (fun w => w.isText ["pickle"] = false)
      (fun v => v.notText ["pickle"] ∧ (∀ s, v = .str s → T s) ∧ ∀ p, v = .proxy p → T p.addr) (fun a => T a.proxy.addr) ask dec where
  arr l h w hw := ⟨quietL_mem (by simpa [Wire.quiet] using h.1) w hw, fun s hs => h.2 s (.item hw hs)⟩
  map m h e he := by
    have h1 := quietM_mem (by simpa [Wire.quiet] using h.1) e he
    exact ⟨⟨h1.1, fun s hs => h.2 s (.key he hs)⟩, ⟨h1.2.1, fun s hs => h.2 s (.value he hs)⟩, h1.2.2⟩
  str s h ht := ⟨str_notText ht, (fun x hx => by cases hx; exact h.2 s .here), (fun p hp => by cases hp)⟩
  inert v h := by
    refine ⟨notText_of h.1, (fun s hs => ?_), (fun p hp => ?_)⟩
    · subst hs; cases h.1
    · subst hp; cases h.2
  asks d h a ha := by
    obtain ⟨e, he, h2⟩ := hf d a ha
    exact (h e he).2.2 _ h2
  decodes d h v hv := by
    have ht : ∀ e ∈ d, e.2.notText ["pickle"] := fun e he => (h e he).1
    have hin : v.inert → v.notText ["pickle"] ∧ (∀ s, v = .str s → T s) ∧ ∀ p, v = .proxy p → T p.addr := by
      intro h
      refine ⟨notText_of h.1, (fun s hs => ?_), (fun p hp => ?_)⟩
      · subst hs; cases h.1
      · subst hp; cases h.2
    rcases hk d v hv with h1 | h1 | ⟨_, h1⟩
    · exact hin h1
    · exact absurd h1 (tag_notText ht "pickle" (by simp))
    · unfold decodeProxy at h1
      cases hp : proxyOfDict (removeStr d encodeKey) with
      | error e => rw [hp] at h1; cases h1
      | ok p =>
        rw [hp] at h1
        simp only at h1
        have hkeep : v = .proxy p → v.notText ["pickle"] ∧ (∀ s, v = .str s → T s) ∧ ∀ p, v = .proxy p → T p.addr := by
          intro hv; subst hv
          refine ⟨notText_of rfl, (fun s hs => by cases hs), (fun q hq => ?_)⟩
          cases hq
          obtain ⟨e, he, h2⟩ := lookupStr_mem_val (proxyOfDict_addr hp)
          exact (h e (removeStr_mem he)).2.1 _ h2
        split at h1
        · rename_i a f hs
          split at h1
          · exact hin (hR a f p v hs h1)
          · cases h1; exact hkeep rfl
        · cases h1; exact hkeep rfl

/-! ## Messages with proxies -/

/-- The message of a proxy without attributes. -/
def proxyWire (p : Proxy) : Wire :=
  .map [(.str encodeKey, .str "proxy"), (.str "rpc_addr", .str p.addr), (.str "obj_id", .int p.oid), (.str "ref_id", .int p.rid),
    (.str "type_str", .str p.typeStr), (.str "attributes", .map [(.str encodeKey, .str "tuple"), (.str "data", .arr [])])]

theorem pack_nat (E : SendEnv) (n : Nat) (t : Refs) {i : Nat} (h : i < 2 ^ 64) :
    pack E (n + 1) t (.int i) = (t, .ok (.int i)) := by
  simp only [pack]; rw [if_pos (by omega)]

theorem encode_default {E : SendEnv} (hE : ∀ ty ∈ defaultTypes, ty ∈ E.tys) (t : Refs) {v : Val} (h : ∃ ty ∈ v.core.types, ty ∈ defaultTypes) :
    encode E t v = (t, encodeValue E.lib v) := by
  obtain ⟨ty, h1, h2⟩ := h
  unfold encode
  rw [if_pos (isinstance_of ty h1 (hE ty h2))]

theorem pack_emptyTuple {E : SendEnv} (hE : ∀ ty ∈ defaultTypes, ty ∈ E.tys) (n : Nat) (t : Refs) :
    pack E (n + 2 + 1) t (.tuple []) = (t, .ok (.map [(.str encodeKey, .str "tuple"), (.str "data", .arr [])])) := by
  have h := encode_default hE t (v := .tuple []) ⟨.tuple, by decide, by decide⟩
  rw [pack]
  · simp only [h, encodeValue, Val.core]
    rfl
  all_goals
    intros
    rename_i e
    cases e

theorem encode_proxy {E : SendEnv} (hE : ∀ ty ∈ defaultTypes, ty ∈ E.tys) (t : Refs) (p : Proxy) : 
    encode E t (.proxy p) = (t, .ok ((.str encodeKey, .str "proxy") :: p.getstate)) := by
  rw [encode_default hE t (v := .proxy p) ⟨.objectProxy, by simp [Val.core, Val.types], by decide⟩]
  rfl

theorem mapS_six {f : Refs → Val → Refs × Except Exc Wire} {t : Refs} {p : Proxy} {w : Wire}
    (ha : p.attrs = []) (h1 : f t (.int p.oid) = (t, .ok (.int p.oid))) (h2 : f t (.int p.rid) = (t, .ok (.int p.rid))) (h3 : f t (.tuple []) = (t, .ok w))
    (hs : ∀ s, f t (.str s) = (t, .ok (.str s))) :
    mapS (pairS f) t ((.str encodeKey, .str "proxy") :: p.getstate) = (t, .ok [(.str encodeKey, .str "proxy"), (.str "rpc_addr", .str p.addr), (.str "obj_id", .int p.oid), (.str "ref_id", .int p.rid),
    (.str "type_str", .str p.typeStr), (.str "attributes", w)]) := by
  simp only [Proxy.getstate, ha, List.map_nil, mapS, pairS, hs, h1, h2, h3]

theorem pack_viaProxy {E : SendEnv} (k : Nat) (t : Refs) {p : Proxy} {d} (h : encode E t (.proxy p) = (t, .ok d)) {m}
   (key : mapS (pairS (pack E k)) t d = (t, .ok m)) : 
    pack E (k + 1) t (.proxy p) = (t, .ok (.map m)) := by
  have : pack E (k + 1) t (.proxy p) = (match encode E t (.proxy p) with
      | (t', .ok d) => (match mapS (pairS (pack E k)) t' d with
        | (t', .ok m) => (t', Except.ok (Wire.map m))
        | (t', .error e) => (t', .error e))
      | (t', .error e) => (t', .error e)) := rfl
  rw [this, h]
  simp only [key]

theorem pack_proxyWire {E : SendEnv} (hE : ∀ ty ∈ defaultTypes, ty ∈ E.tys) (n : Nat) (t : Refs) {p : Proxy}
    (ha : p.attrs = []) (ho : p.oid < 2 ^ 64) (hr : p.rid < 2 ^ 64) :
    pack E (n + 2 + 1 + 1) t (.proxy p) = (t, .ok (proxyWire p)) :=
  pack_viaProxy (n + 2 + 1) t (encode_proxy hE t p) (mapS_six ha (pack_nat E (n + 2) t ho) (pack_nat E (n + 2) t hr) (pack_emptyTuple hE n t)
    (fun _ => by simp only [pack]))

theorem unpack_proxyWire (R : RecvEnv) {p : Proxy} (ha : p.attrs = []) (hp : p.foreign R) :
    unpackQ R (proxyWire p) = .done (.ok (.proxy p)) := by
  refine reads_ok (unpack_reads R _) ?_
  have h : unpack R (proxyWire p) = decode R ((.str encodeKey, .str "proxy") :: p.getstate) := by
    obtain ⟨a, o, r, s, l⟩ := p
    simp only at ha; subst ha
    rfl
  rw [h, decodeProxy_ok]
  unfold received
  split
  · rename_i a f hs; rw [if_neg (hp a f hs)]
  · rfl

/-- The JSON message of a proxy without attributes. -/
def jproxyWire (p : Proxy) : Wire :=
  .map [(.str encodeKey, .str "proxy"), (.str "rpc_addr", .str p.addr), (.str "obj_id", .int p.oid), (.str "ref_id", .int p.rid),
    (.str "type_str", .str p.typeStr), (.str "attributes", .arr [])]

theorem jmapS_six {L : Lib} {f : Refs → Val → Refs × Except Exc Wire} {t : Refs} {p : Proxy} {w : Wire}
    (ha : p.attrs = []) (h1 : ∀ i, f t (.int i) = (t, .ok (.int i))) (h3 : f t (.tuple []) = (t, .ok w))
    (hs : ∀ s, f t (.str s) = (t, .ok (.str s))) :
    mapS (jpair L f) t ((.str encodeKey, .str "proxy") :: p.getstate) = (t, .ok [(.str encodeKey, .str "proxy"),
      (.str "rpc_addr", .str p.addr), (.str "obj_id", .int p.oid), (.str "ref_id", .int p.rid),
      (.str "type_str", .str p.typeStr), (.str "attributes", w)]) := by
  simp only [Proxy.getstate, ha, List.map_nil, mapS, jpair, jkey, Val.core, hs, h1, h3]

theorem jpack_viaProxy {E : SendEnv} (k : Nat) (t : Refs) {p : Proxy} {d} (h : encode E t (.proxy p) = (t, .ok d)) {m}
   (key : mapS (jpair E.lib (jpack E k)) t d = (t, .ok m)) :
    jpack E (k + 1) t (.proxy p) = (t, .ok (.map m)) := by
  have : jpack E (k + 1) t (.proxy p) = (match encode E t (.proxy p) with
      | (t', .ok d) => (match mapS (jpair E.lib (jpack E k)) t' d with
        | (t', .ok m) => (t', Except.ok (Wire.map m))
        | (t', .error e) => (t', .error e))
      | (t', .error e) => (t', .error e)) := rfl
  rw [this, h]
  simp only [key]

theorem jpack_proxyWire {E : SendEnv} (hE : ∀ ty ∈ defaultTypes, ty ∈ E.tys) (n : Nat) (t : Refs) {p : Proxy}
    (ha : p.attrs = []) : jpack E (n + 1 + 1) t (.proxy p) = (t, .ok (jproxyWire p)) :=
  jpack_viaProxy (n + 1) t (encode_proxy hE t p) (jmapS_six ha (fun _ => rfl) rfl (fun _ => rfl))

theorem junpack_proxyWire (R : RecvEnv) {p : Proxy} (ha : p.attrs = []) (hp : p.foreign R) :
    junpackQ R (jproxyWire p) = .done (.ok (.proxy p)) := by
  refine reads_ok (junpack_reads R _) ?_
  have h : junpack R (jproxyWire p) = decodeProxy R [(.str "rpc_addr", .str p.addr), (.str "obj_id", .int p.oid),
      (.str "ref_id", .int p.rid), (.str "type_str", .str p.typeStr), (.str "attributes", .list [])] := rfl
  have hd : proxyOfDict [(.str "rpc_addr", .str p.addr), (.str "obj_id", .int p.oid),
      (.str "ref_id", .int p.rid), (.str "type_str", .str p.typeStr), (.str "attributes", .list [])] = .ok p := by
    obtain ⟨a, o, r, s, l⟩ := p
    simp only at ha; subst ha
    simp [proxyOfDict, proxyAttrs, keyNames, lookupStr, proxyParams, Val.asStr?, Val.asNat?, Val.items, asStrs]
  rw [h]
  unfold decodeProxy
  rw [hd]
  simp only
  split
  · rename_i a f hs; rw [if_neg (hp a f hs)]
  · rfl

end Verif
