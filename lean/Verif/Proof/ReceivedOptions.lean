import Verif.Spec.ReceivedOptions
import Verif.Proof.Asks
import Verif.Props.ProxyMore
/-! # Proofs: options of proxies read from a message -/
namespace Verif

/-! ## Keys of a dict that was read -/

theorem keyEq_iff_str (x : Val) (k : String) : keyEq x (.str k) = true ↔ x = .str k := by
  cases x <;> simp [keyEq]

theorem keyEq_comm (x y : Val) : keyEq x y = keyEq y x := by
  cases x <;> cases y <;> simp [keyEq, eq_comm]

theorem itemSet_keys (d : List (Val × Val)) (k v : Val) :
    (itemSet d k v).map (·.1) = d.map (·.1) ∨ ((itemSet d k v).map (·.1) = d.map (·.1) ++ [k] ∧ ∀ e ∈ d, keyEq e.1 k = false) := by
  induction d with
  | nil => exact .inr ⟨rfl, fun e he => by cases he⟩
  | cons e d ih =>
    obtain ⟨k', v'⟩ := e
    by_cases hk : keyEq k' k = true
    · left; simp only [itemSet, hk, if_true, List.map_cons]
    · have hk' : keyEq k' k = false := by simpa using hk
      simp only [itemSet, hk', Bool.false_eq_true, if_false, List.map_cons, List.cons_append]
      rcases ih with h | ⟨h1, h2⟩
      · left; rw [h]
      · right
        refine ⟨by rw [h1], fun e he => ?_⟩
        rcases List.mem_cons.1 he with rfl | he
        · exact hk'
        · exact h2 e he

theorem itemSet_distinct {d : List (Val × Val)} (h : (d.map (·.1)).Pairwise (fun a b => keyEq a b = false)) (k v : Val) :
    ((itemSet d k v).map (·.1)).Pairwise (fun a b => keyEq a b = false) := by
  rcases itemSet_keys d k v with h1 | ⟨h1, h2⟩
  · rw [h1]; exact h
  · rw [h1, List.pairwise_append]
    refine ⟨h, by simp, fun a ha b hb => ?_⟩
    obtain ⟨e, he, rfl⟩ := List.mem_map.1 ha
    rw [List.mem_singleton.1 hb]
    exact h2 e he

theorem dictOf_distinct (l : List (Val × Val)) : ((dictOf l).map (·.1)).Pairwise (fun a b => keyEq a b = false) := by
  unfold dictOf
  suffices H : ∀ acc : List (Val × Val), (acc.map (·.1)).Pairwise (fun a b => keyEq a b = false) →
      ((l.foldl (fun d kv => itemSet d kv.1 kv.2) acc).map (·.1)).Pairwise (fun a b => keyEq a b = false) from H [] .nil
  induction l with
  | nil => exact fun _ h => h
  | cons e l ih => intro acc h; exact ih _ (itemSet_distinct h _ _)

theorem removeStr_sublist (d : List (Val × Val)) (k : String) : (removeStr d k).Sublist d := by
  induction d with
  | nil => exact .slnil
  | cons e d ih =>
    obtain ⟨x, v⟩ := e
    cases x <;> simp only [removeStr] <;> try exact ih.cons_cons _
    split
    · exact ih.cons _
    · exact ih.cons_cons _

theorem optionArgs_mem {d : List (Val × Val)} {e : String × Val} (h : e ∈ optionArgs d) : (Val.str e.1, e.2) ∈ d ∧ e.1 ∉ proxyParams := by
  induction d with
  | nil => cases h
  | cons x d ih =>
    obtain ⟨k, v⟩ := x
    have hr : e ∈ optionArgs d → (Val.str e.1, e.2) ∈ (k, v) :: d ∧ e.1 ∉ proxyParams := fun h => ⟨.tail _ (ih h).1, (ih h).2⟩
    cases k <;> simp only [optionArgs] at h <;> try exact hr h
    rename_i s
    split at h
    · exact hr h
    · rcases List.mem_cons.1 h with rfl | h
      · exact ⟨.head _, by assumption⟩
      · exact hr h

theorem optionArgs_wf {d : List (Val × Val)} (h : (d.map (·.1)).Pairwise (fun a b => keyEq a b = false)) : (optionArgs d).WF := by
  induction d with
  | nil => exact List.nodup_nil
  | cons x d ih =>
    obtain ⟨k, v⟩ := x
    rw [List.map_cons, List.pairwise_cons] at h
    have hr := ih h.2
    cases k <;> simp only [optionArgs] <;> try exact hr
    rename_i s
    split
    · exact hr
    · show (s :: (optionArgs d).map (·.1)).Nodup
      rw [List.nodup_cons]
      refine ⟨fun hm => ?_, hr⟩
      obtain ⟨e, he, hs⟩ := List.mem_map.1 hm
      have := h.1 (.str s) (List.mem_map.2 ⟨_, (optionArgs_mem he).1, by rw [hs]⟩)
      simp [keyEq] at this

theorem optionArgs_get {d : List (Val × Val)} {k : String} (hk : k ∉ proxyParams) : (optionArgs d).get? k = lookupStr d k := by
  induction d with
  | nil => rfl
  | cons x d ih =>
    obtain ⟨y, v⟩ := x
    cases y <;> simp only [optionArgs, lookupStr] <;> try exact ih
    rename_i s
    split
    · rename_i hs
      rw [ih, if_neg (fun e : s = k => hk (e ▸ hs))]
    · simp only [Dict.get?]
      rw [ih]

/-! ## Making a proxy object -/

theorem setOptions_gives {p q : PObj} {kw : Dict String Val} (hw : kw.WF) (h : p.setOptions kw = (q, .ok ())) :
    q.proxy = p.proxy ∧ ∀ k, q.opts.get? k = match kw.get? k with | some v => some v | none => p.opts.get? k := by
  have hs : kw.has "self" = false := by
    cases hs : kw.has "self" with
    | false => rfl
    | true => simp [PObj.setOptions, hs] at h
  rcases C45_all_or_nothing_partial (p := p) kw hw hs with ⟨q', h1, h2, _, h3⟩ | ⟨h1, _⟩
  · rw [h1] at h; cases h; exact ⟨h2, h3⟩
  · rw [h1] at h; cases h

theorem new_gives {x : Proxy} {q : PObj} {kw : Dict String Val} (hw : kw.WF) (h : PObj.new x kw = .ok q) :
    q.proxy = x ∧ ∀ k, q.opts.get? k = match kw.get? k with | some v => some v | none => defaultOptions.get? k := by
  unfold PObj.new at h
  split at h
  · rename_i hs; cases h; exact setOptions_gives hw hs
  · cases h

theorem ofDict_ok {popts : Option (Dict String Val)} (hp : ∀ o, popts = some o → o.WF) {d : List (Val × Val)}
    (hd : (d.map (·.1)).Pairwise (fun a b => keyEq a b = false)) {q : PObj} (h : PObj.ofDict popts d = .ok q) :
    proxyOfDict d = .ok q.proxy ∧ ∀ k ∉ proxyParams, q.opts.get? k = optionOf popts d k := by
  unfold PObj.ofDict at h
  split at h
  · cases h
  rename_i p hpd
  split at h
  · cases h
  rename_i q1 h1
  obtain ⟨n1, n2⟩ := new_gives (optionArgs_wf hd) h1
  have hm : ∀ k ∉ proxyParams, q1.opts.get? k = match lookupStr d k with | some v => some v | none => defaultOptions.get? k := by
    intro k hk
    rw [n2, optionArgs_get hk]
  split at h
  · cases h
    refine ⟨by rw [hpd, n1], fun k hk => ?_⟩
    rw [hm k hk, optionOf]
    simp only [Option.bind_none]
    cases lookupStr d k <;> rfl
  · rename_i o
    split at h
    · rename_i hs
      cases h
      obtain ⟨s1, s2⟩ := setOptions_gives (hp o rfl) hs
      refine ⟨by rw [hpd, s1, n1], fun k hk => ?_⟩
      rw [s2, hm k hk, optionOf]
      simp only [Option.bind_some]
      cases o.get? k <;> cases lookupStr d k <;> rfl
    · cases h

theorem decodeMakes_some {popts : Option (Dict String Val)} {d : List (Val × Val)} {x : Except Exc PObj} (h : decodeMakes popts d = some x) :
    (∃ v, lookupStr d encodeKey = some v ∧ v.text? = some "proxy") ∧ x = PObj.ofDict popts (removeStr d encodeKey) := by
  unfold decodeMakes at h
  split at h
  · rename_i h1
    cases h
    cases hl : lookupStr d encodeKey with
    | none => rw [hl] at h1; cases h1
    | some v => rw [hl] at h1; exact ⟨⟨v, rfl, h1⟩, rfl⟩
  · cases h

theorem decode_proxy {R : RecvEnv} {d : List (Val × Val)} {v : Val} (h1 : lookupStr d encodeKey = some v) (h2 : v.text? = some "proxy") {p : Proxy}
    (hp : proxyOfDict (removeStr d encodeKey) = .ok p) : decode R d = received R p := by
  have hv : v ≠ .none ∧ ∀ p, v ≠ .proxy p := by
    constructor
    · rintro rfl; cases h2
    · rintro p rfl; cases h2
  have : decode R d = decodeProxy R (removeStr d encodeKey) := by
    unfold decode
    rw [h1]
    cases v <;> first | exact absurd rfl hv.1 | exact absurd rfl (hv.2 _) | (simp only [h2])
  rw [this]
  unfold decodeProxy received
  rw [hp]
  rfl

/-! ## What `dumps` writes has no options -/

/-- The map occurs in the message. -/
inductive Inside (m : List (Wire × Wire)) : Wire → Prop
  | here : Inside m (.map m)
  | item {l : List Wire} {w : Wire} : w ∈ l → Inside m w → Inside m (.arr l)
  | key {m' : List (Wire × Wire)} {e : Wire × Wire} : e ∈ m' → Inside m e.1 → Inside m (.map m')
  | value {m' : List (Wire × Wire)} {e : Wire × Wire} : e ∈ m' → Inside m e.2 → Inside m (.map m')

theorem makes_inside {readMap popts q w} (h : Makes readMap popts q w) :
    ∃ m d, Inside m w ∧ readMap m = .ok d ∧ decodeMakes popts (dictOf d) = some (.ok q) := by
  induction h with
  | here h1 h2 => exact ⟨_, _, .here, h1, h2⟩
  | item hw _ ih => obtain ⟨m, d, h1, h2⟩ := ih; exact ⟨m, d, .item hw h1, h2⟩
  | key hw _ ih => obtain ⟨m, d, h1, h2⟩ := ih; exact ⟨m, d, .key hw h1, h2⟩
  | value hw _ ih => obtain ⟨m, d, h1, h2⟩ := ih; exact ⟨m, d, .value hw h1, h2⟩

/-- A map without type name, one with another type name than `proxy`, or one with the fields of a proxy only. -/
def CleanMap (m : List (Wire × Wire)) : Prop :=
  (∀ e ∈ m, (∃ s, e.1 = .str s ∧ s ≠ encodeKey) ∨ ∃ b, e.1 = .bin b) ∨
  (∃ s r, m = (.str encodeKey, .str s) :: r ∧ s ≠ "proxy" ∧ ∀ e ∈ r, ∃ k, e.1 = .str k ∧ k ≠ encodeKey) ∨
  (∃ a b c x y, m = [(.str encodeKey, .str "proxy"), (.str "rpc_addr", a), (.str "obj_id", b), (.str "ref_id", c), (.str "type_str", x), (.str "attributes", y)])

/-- All maps in the message are such. -/
def Clean (w : Wire) : Prop := ∀ m, Inside m w → CleanMap m

theorem clean_atom {w : Wire} (h1 : ∀ l, w ≠ .arr l) (h2 : ∀ m, w ≠ .map m) : Clean w := by
  intro m h
  cases h with
  | here => exact absurd rfl (h2 _)
  | item => exact absurd rfl (h1 _)
  | key => exact absurd rfl (h2 _)
  | value => exact absurd rfl (h2 _)

theorem clean_arr {l : List Wire} (h : ∀ w ∈ l, Clean w) : Clean (.arr l) := by
  intro m hm
  cases hm with
  | item hw hi => exact h _ hw m hi

theorem clean_map {m : List (Wire × Wire)} (h0 : CleanMap m) (h : ∀ e ∈ m, Clean e.1 ∧ Clean e.2) : Clean (.map m) := by
  intro m' hm
  cases hm with
  | here => exact h0
  | key hw hi => exact (h _ hw).1 _ hi
  | value hw hi => exact (h _ hw).2 _ hi

/-- The entries are related one by one. -/
inductive Pairs {α β : Type} (P : α → β → Prop) : List α → List β → Prop
  | nil : Pairs P [] []
  | cons {a b as bs} : P a b → Pairs P as bs → Pairs P (a :: as) (b :: bs)

theorem Pairs.left {α β : Type} {P : α → β → Prop} {l : List α} {m : List β} (h : Pairs P l m) : ∀ b ∈ m, ∃ a ∈ l, P a b := by
  induction h with
  | nil => intro b hb; cases hb
  | cons h1 _ ih =>
    intro b hb
    rcases List.mem_cons.1 hb with rfl | hb
    · exact ⟨_, .head _, h1⟩
    · obtain ⟨a, ha, hp⟩ := ih b hb
      exact ⟨a, .tail _ ha, hp⟩

theorem mapS_pairs {α β : Type} {f : Refs → α → Refs × Except Exc β} : ∀ {l : List α} {t t' : Refs} {bs : List β},
    mapS f t l = (t', .ok bs) → Pairs (fun a b => ∃ t t', f t a = (t', .ok b)) l bs := by
  intro l
  induction l with
  | nil =>
    intro t t' bs h
    simp only [mapS, Prod.mk.injEq, Except.ok.injEq] at h
    rw [← h.2]; exact .nil
  | cons a l ih =>
    intro t t' bs h
    rw [mapS] at h
    split at h
    · simp at h
    · next t1 b1 h1 =>
      split at h
      · simp at h
      · next t2 bs2 h2 =>
        simp only [Prod.mk.injEq, Except.ok.injEq] at h
        rw [← h.2]
        exact .cons ⟨_, _, h1⟩ (ih h2)

/-- `f` can give this message for the value. -/
def Yields (f : Refs → Val → Refs × Except Exc Wire) (v : Val) (w : Wire) : Prop := ∃ t t', f t v = (t', .ok w)

theorem Pairs.mono {α β : Type} {P Q : α → β → Prop} (h : ∀ a b, P a b → Q a b) {l : List α} {m : List β} (hp : Pairs P l m) : Pairs Q l m := by
  induction hp with
  | nil => exact .nil
  | cons h1 _ ih => exact .cons (h _ _ h1) ih

theorem pairS_gives {f : Refs → Val → Refs × Except Exc Wire} {t t' d m} (h : mapS (pairS f) t d = (t', .ok m)) :
    Pairs (fun a b => Yields f a.1 b.1 ∧ Yields f a.2 b.2) d m := by
  refine (mapS_pairs h).mono fun a b ⟨t, t', hp⟩ => ?_
  rw [pairS] at hp
  split at hp
  · simp at hp
  · next h1 =>
    split at hp
    · simp at hp
    · next h2 =>
      simp only [Prod.mk.injEq, Except.ok.injEq] at hp
      rw [← hp.2]
      exact ⟨⟨_, _, h1⟩, ⟨_, _, h2⟩⟩

theorem jpair_gives {L : Lib} {f : Refs → Val → Refs × Except Exc Wire} {t t' d m} (h : mapS (jpair L f) t d = (t', .ok m)) :
    Pairs (fun a b => (∃ s, jkey L a.1 = .ok s ∧ b.1 = .str s) ∧ Yields f a.2 b.2) d m := by
  refine (mapS_pairs h).mono fun a b ⟨t, t', hp⟩ => ?_
  rw [jpair] at hp
  split at hp
  · simp at hp
  · next s h1 =>
    split at hp
    · simp at hp
    · next h2 =>
      simp only [Prod.mk.injEq, Except.ok.injEq] at hp
      rw [← hp.2]
      exact ⟨⟨s, h1, rfl⟩, ⟨_, _, h2⟩⟩

theorem tagFreeL_mem {name l} (h : tagFreeL name l = true) : ∀ v ∈ l, v.tagFree name = true := by
  induction l with
  | nil => intro v hv; cases hv
  | cons x l ih =>
    simp only [tagFreeL, Bool.and_eq_true] at h
    intro v hv
    rcases List.mem_cons.1 hv with rfl | hv
    · exact h.1
    · exact ih h.2 v hv

theorem tagFreeL_of {name l} (h : ∀ v ∈ l, Val.tagFree name v = true) : tagFreeL name l = true := by
  induction l with
  | nil => rfl
  | cons x l ih => simp [tagFreeL, h x (by simp), ih fun v hv => h v (by simp [hv])]

theorem tagFreeD_mem {name d} (h : tagFreeD name d = true) : ∀ e ∈ d, ((∃ b, e.1 = .bytes b) ∨ ∃ s, name e.1 = some s ∧ s ≠ encodeKey) ∧ e.2.tagFree name = true := by
  induction d with
  | nil => intro v hv; cases hv
  | cons x d ih =>
    obtain ⟨k, v⟩ := x
    simp only [tagFreeD, Bool.and_eq_true] at h
    intro e he
    rcases List.mem_cons.1 he with rfl | he
    · refine ⟨?_, h.1.2⟩
      have h1 := h.1.1
      split at h1
      · exact .inl ⟨_, rfl⟩
      · rename_i s _ hs
        exact .inr ⟨_, hs, by simpa [encodeKey] using h1⟩
      · cases h1
    · exact ih h.2 e he

theorem tagFree_core {name} : ∀ {v : Val}, v.tagFree name = true → v.core.tagFree name = true
  | .sub _ v, h => by
    simp only [Val.tagFree] at h
    simp only [Val.core]
    exact tagFree_core h
  | .none, h | .bool _, h | .int _, h | .float _, h | .str _, h | .bytes _, h | .list _, h | .tuple _, h | .dict _, h | .datetime _, h | .date _, h
  | .ndarray _, h | .proxy _, h | .npScalar _, h | .dtype _, h | .obj _ _, h => by simpa only [Val.core] using h

/-- The entries `encode` makes: a type name other than `proxy`, or the fields of a proxy. -/
def Typed (name : Val → Option String) (d : List (Val × Val)) : Prop :=
  (∃ s r, d = (.str encodeKey, .str s) :: r ∧ s ≠ "proxy" ∧ (∀ e ∈ r, ∃ k, e.1 = .str k ∧ k ≠ encodeKey) ∧ ∀ e ∈ r, e.2.tagFree name = true) ∨
  ∃ p : Proxy, d = (.str encodeKey, .str "proxy") :: p.getstate

theorem encodeValue_typed {name} {L : Lib} {v : Val} (hv : v.tagFree name = true) {d} (h : encodeValue L v = .ok d) : Typed name d := by
  have hc := tagFree_core hv
  have hints : ∀ l : List Nat, Val.tagFree name (.tuple (l.map fun (n : Nat) => .int n)) = true := by
    intro l
    simp only [Val.tagFree]
    exact tagFreeL_of fun x hx => by obtain ⟨n, _, rfl⟩ := List.mem_map.1 hx; rfl
  unfold encodeValue at h
  split at h
  · cases h
    refine .inl ⟨_, _, rfl, by decide, ?_, ?_⟩
    · simp [encodeKey]
    · intro e he
      simp only [List.mem_cons, List.not_mem_nil, or_false] at he
      rcases he with rfl | rfl | rfl
      · rfl
      · rfl
      · exact hints _
  · cases h; exact .inr ⟨_, rfl⟩
  · cases h; exact .inl ⟨_, _, rfl, by decide, by simp [encodeKey], by simp [Val.tagFree]⟩
  · cases h; exact .inl ⟨_, _, rfl, by decide, by simp [encodeKey], by simp [Val.tagFree]⟩
  · rename_i l hl
    cases h
    rw [hl] at hc
    simp only [Val.tagFree] at hc
    exact .inl ⟨_, _, rfl, by decide, by simp [encodeKey], by simp [Val.tagFree, hc]⟩
  · cases h; exact .inl ⟨_, _, rfl, by decide, by simp, by simp⟩
  · have hp : ∀ {x : Except Exc Bytes}, (match x with
        | .ok b => Except.ok [(Val.str encodeKey, Val.str "pickle"), (.str "pickle_str", .bytes b)]
        | .error e => .error e) = .ok d → Typed name d := by
      intro x h
      split at h
      · cases h; exact .inl ⟨_, _, rfl, by decide, by simp [encodeKey], by simp [Val.tagFree]⟩
      · cases h
    split at h
    · exact hp h
    · exact hp h
    · split at h
      · rename_i s _ _ _ _ x hx
        cases h
        refine .inl ⟨_, _, rfl, by decide, by simp [encodeKey], ?_⟩
        have : x.tagFree name = true := by
          unfold NpScalar.toPy at hx
          split at hx <;> first | (cases hx; rfl) | cases hx
        simp [Val.tagFree, this]
      · cases h
  · split at h
    · cases h; exact .inl ⟨_, _, rfl, by decide, by simp [encodeKey], by simp [Val.tagFree]⟩
    · cases h

theorem encode_typed {name} {E : SendEnv} {t t'} {v : Val} (hv : v.tagFree name = true) {d} (h : encode E t v = (t', .ok d)) : Typed name d := by
  unfold encode at h
  split at h
  · simp only [Prod.mk.injEq] at h; exact encodeValue_typed hv h.2
  · split at h
    · simp at h
    · split at h
      · simp only [Prod.mk.injEq] at h; exact encodeValue_typed (v := .proxy _) rfl h.2
      · simp at h

theorem jencode_typed {name} {E : SendEnv} {t t'} {v : Val} (hv : v.tagFree name = true) {d} (h : jencode E t v = (t', .ok d)) : Typed name d := by
  unfold jencode at h
  split at h
  · simp only [Prod.mk.injEq] at h
    have h := h.2
    split at h
    · cases h
      refine .inl ⟨_, _, rfl, by decide, by simp [encodeKey], ?_⟩
      intro e he
      simp only [List.mem_cons, List.not_mem_nil, or_false] at he
      rcases he with rfl | rfl | rfl
      · rfl
      · rfl
      · simp only [Val.tagFree]
        exact tagFreeL_of fun x hx => by obtain ⟨n, _, rfl⟩ := List.mem_map.1 hx; rfl
    · cases h
  · simp only [Prod.mk.injEq] at h
    have h := h.2
    cases h
    exact .inl ⟨_, _, rfl, by decide, by simp [encodeKey], by simp [Val.tagFree]⟩
  · exact encode_typed hv h

/-- A map written for typed entries is clean. -/
theorem typed_clean {name} {K V : Val → Wire → Prop} (hk : ∀ s w, K (.str s) w → w = .str s) (hs : ∀ s w, V (.str s) w → w = .str s)
    (hV : ∀ v w, v.tagFree name = true → V v w → Clean w) {d m} (hd : Typed name d)
    (h : Pairs (fun a b => K a.1 b.1 ∧ V a.2 b.2) d m) : Clean (.map m) := by
  have hatom : ∀ s, Clean (.str s) := fun s => clean_atom (by intro _; nofun) (by intro _; nofun)
  rcases hd with ⟨s, r, rfl, hp, h1, h2⟩ | ⟨p, rfl⟩
  · cases h with
    | cons hb hr =>
      rename_i b bs
      obtain ⟨b1, b2⟩ := b
      have e1 := hk _ _ hb.1
      have e2 := hs _ _ hb.2
      simp only at e1 e2
      subst e1; subst e2
      have hkeys : ∀ e ∈ bs, (∃ k, e.1 = .str k ∧ k ≠ encodeKey) ∧ Clean e.2 := by
        intro e he
        obtain ⟨a, ha, hab⟩ := hr.left e he
        obtain ⟨k, hk1, hk2⟩ := h1 a ha
        rw [hk1] at hab
        exact ⟨⟨k, hk _ _ hab.1, hk2⟩, hV _ _ (h2 a ha) hab.2⟩
      refine clean_map (.inr (.inl ⟨s, bs, rfl, hp, fun e he => (hkeys e he).1⟩)) fun e he => ?_
      rcases List.mem_cons.1 he with rfl | he
      · exact ⟨hatom _, hatom _⟩
      · obtain ⟨⟨k, hk1, _⟩, h3⟩ := hkeys e he
        exact ⟨hk1 ▸ hatom k, h3⟩
  · have htup : Val.tagFree name (.tuple (p.attrs.map .str)) = true := by
      simp only [Val.tagFree]
      exact tagFreeL_of fun x hx => by obtain ⟨n, _, rfl⟩ := List.mem_map.1 hx; rfl
    unfold Proxy.getstate at h
    obtain _ | ⟨a0, _ | ⟨a1, _ | ⟨a2, _ | ⟨a3, _ | ⟨a4, _ | ⟨a5, h⟩⟩⟩⟩⟩⟩ := h
    cases h
    rename_i b0 b1 b2 b3 b4 b5
    obtain ⟨k0, v0⟩ := b0; obtain ⟨k1, v1⟩ := b1; obtain ⟨k2, v2⟩ := b2
    obtain ⟨k3, v3⟩ := b3; obtain ⟨k4, v4⟩ := b4; obtain ⟨k5, v5⟩ := b5
    simp only at a0 a1 a2 a3 a4 a5
    have := hk _ _ a0.1; subst this
    have := hk _ _ a1.1; subst this
    have := hk _ _ a2.1; subst this
    have := hk _ _ a3.1; subst this
    have := hk _ _ a4.1; subst this
    have := hk _ _ a5.1; subst this
    have := hs _ _ a0.2; subst this
    refine clean_map (.inr (.inr ⟨_, _, _, _, _, rfl⟩)) fun e he => ?_
    simp only [List.mem_cons, List.not_mem_nil, or_false] at he
    rcases he with rfl | rfl | rfl | rfl | rfl | rfl
    · exact ⟨hatom _, hatom _⟩
    · exact ⟨hatom _, hV _ _ rfl a1.2⟩
    · exact ⟨hatom _, hV _ _ rfl a2.2⟩
    · exact ⟨hatom _, hV _ _ rfl a3.2⟩
    · exact ⟨hatom _, hV _ _ rfl a4.2⟩
    · exact ⟨hatom _, hV _ _ htup a5.2⟩

theorem pack_str {E : SendEnv} {n : Nat} {s : String} {w : Wire} (h : Yields (pack E n) (.str s) w) : w = .str s := by
  obtain ⟨t, t', h⟩ := h
  cases n with
  | zero => simp [pack] at h
  | succ n => simp only [pack, Prod.mk.injEq, Except.ok.injEq] at h; exact h.2.symm

theorem pack_bytes {E : SendEnv} {n : Nat} {b : Bytes} {w : Wire} (h : Yields (pack E n) (.bytes b) w) : w = .bin b := by
  obtain ⟨t, t', h⟩ := h
  cases n with
  | zero => simp [pack] at h
  | succ n => simp only [pack, Prod.mk.injEq, Except.ok.injEq] at h; exact h.2.symm

theorem jpack_str {E : SendEnv} {n : Nat} {s : String} {w : Wire} (h : Yields (jpack E n) (.str s) w) : w = .str s := by
  obtain ⟨t, t', h⟩ := h
  cases n with
  | zero => simp [jpack] at h
  | succ n => simp only [jpack, Val.core, Prod.mk.injEq, Except.ok.injEq] at h; exact h.2.symm

theorem pack_clean (E : SendEnv) : ∀ (n : Nat) (v : Val) (w : Wire), v.tagFree strName = true → Yields (pack E n) v w → Clean w
  | 0, v, w, _, h => by obtain ⟨t, t', h⟩ := h; simp [pack] at h
  | n + 1, v, w, hv, h => by
    have ih := pack_clean E n
    have hdef : ∀ {t v t' w}, Val.tagFree strName v = true → (match encode E t v with
        | (t', .ok d) => (match mapS (pairS (pack E n)) t' d with
          | (t', .ok m) => (t', Except.ok (Wire.map m))
          | (t', .error e) => (t', .error e))
        | (t', .error e) => (t', .error e)) = (t', Except.ok w) → Clean w := by
      intro t v t' w hv h
      split at h
      · next he =>
        split at h
        · next hm =>
          simp only [Prod.mk.injEq, Except.ok.injEq] at h
          rw [← h.2]
          exact typed_clean (K := Yields (pack E n)) (V := Yields (pack E n)) (fun _ _ => pack_str) (fun _ _ => pack_str)
            ih (encode_typed hv he) (pairS_gives hm)
        · simp at h
      · simp at h
    obtain ⟨t, t', h⟩ := h
    have hatom : ∀ {x : Wire}, (∀ l, x ≠ .arr l) → (∀ m, x ≠ .map m) → (t, Except.ok x) = ((t', Except.ok w) : Refs × Except Exc Wire) → Clean w := by
      intro x h1 h2 hx
      simp only [Prod.mk.injEq, Except.ok.injEq] at hx
      rw [← hx.2]
      exact clean_atom h1 h2
    cases v with
    | int i =>
      simp only [pack] at h
      split at h
      · exact hatom (by intro _; nofun) (by intro _; nofun) h
      · exact hdef hv h
    | list l =>
      simp only [Val.tagFree] at hv
      simp only [pack] at h
      split at h
      · next hm =>
        simp only [Prod.mk.injEq, Except.ok.injEq] at h
        rw [← h.2]
        refine clean_arr fun x hx => ?_
        obtain ⟨a, ha, hg⟩ := (mapS_pairs hm).left x hx
        exact ih _ _ (tagFreeL_mem hv a ha) hg
      · simp at h
    | dict d =>
      simp only [Val.tagFree] at hv
      simp only [pack] at h
      split at h
      · next tm m hm =>
        simp only [Prod.mk.injEq, Except.ok.injEq] at h
        rw [← h.2]
        have hk : ∀ e ∈ m, ((∃ s, e.1 = .str s ∧ s ≠ encodeKey) ∨ ∃ b, e.1 = .bin b) ∧ Clean e.2 := by
          intro e he
          obtain ⟨a, ha, hg⟩ := (pairS_gives hm).left e he
          obtain ⟨h1, h2⟩ := tagFreeD_mem hv a ha
          refine ⟨?_, ih _ _ h2 hg.2⟩
          rcases h1 with ⟨b, hb⟩ | ⟨s, hs, hn⟩
          · rw [hb] at hg; exact .inr ⟨b, pack_bytes hg.1⟩
          · have : a.1 = .str s := by
              revert hs
              cases a.1 <;> simp [strName]
            rw [this] at hg
            exact .inl ⟨s, pack_str hg.1, hn⟩
        refine clean_map (.inl fun e he => (hk e he).1) fun e he => ⟨?_, (hk e he).2⟩
        rcases (hk e he).1 with ⟨s, hs, _⟩ | ⟨b, hb⟩
        · rw [hs]; exact clean_atom (by intro _; nofun) (by intro _; nofun)
        · rw [hb]; exact clean_atom (by intro _; nofun) (by intro _; nofun)
      · simp at h
    | none => simp only [pack] at h; exact hatom (by intro _; nofun) (by intro _; nofun) h
    | bool b => simp only [pack] at h; exact hatom (by intro _; nofun) (by intro _; nofun) h
    | float f => simp only [pack] at h; exact hatom (by intro _; nofun) (by intro _; nofun) h
    | str s => simp only [pack] at h; exact hatom (by intro _; nofun) (by intro _; nofun) h
    | bytes b => simp only [pack] at h; exact hatom (by intro _; nofun) (by intro _; nofun) h
    | _ => simp only [pack] at h; exact hdef hv h

theorem jpack_clean (E : SendEnv) : ∀ (n : Nat) (v : Val) (w : Wire), v.tagFree (jsonName E.lib) = true → Yields (jpack E n) v w → Clean w
  | 0, v, w, _, h => by obtain ⟨t, t', h⟩ := h; simp [jpack] at h
  | n + 1, v, w, hv, h => by
    have ih := jpack_clean E n
    have hc := tagFree_core hv
    obtain ⟨t, t', h⟩ := h
    have hdef : (match jencode E t v with
        | (t', .ok d) => (match mapS (jpair E.lib (jpack E n)) t' d with
          | (t', .ok m) => (t', Except.ok (Wire.map m))
          | (t', .error e) => (t', .error e))
        | (t', .error e) => (t', .error e)) = (t', Except.ok w) → Clean w := by
      intro h
      split at h
      · next he =>
        split at h
        · next hm =>
          simp only [Prod.mk.injEq, Except.ok.injEq] at h
          rw [← h.2]
          refine typed_clean (K := fun a b => ∃ s, jkey E.lib a = .ok s ∧ b = .str s) (V := Yields (jpack E n)) ?_ (fun _ _ => jpack_str)
            ih (jencode_typed hv he) (jpair_gives hm)
          rintro s w ⟨s', h1, h2⟩
          simp only [jkey, Val.core, Except.ok.injEq] at h1
          rw [h2, h1]
        · simp at h
      · simp at h
    have hatom : ∀ {x : Wire}, (∀ l, x ≠ .arr l) → (∀ m, x ≠ .map m) → (t, Except.ok x) = ((t', Except.ok w) : Refs × Except Exc Wire) → Clean w := by
      intro x h1 h2 hx
      simp only [Prod.mk.injEq, Except.ok.injEq] at hx
      rw [← hx.2]
      exact clean_atom h1 h2
    have hlist : ∀ {l}, tagFreeL (jsonName E.lib) l = true → (match mapS (jpack E n) t l with
        | (t', .ok ws) => (t', Except.ok (Wire.arr ws))
        | (t', .error e) => (t', .error e)) = (t', Except.ok w) → Clean w := by
      intro l hv h
      split at h
      · next hm =>
        simp only [Prod.mk.injEq, Except.ok.injEq] at h
        rw [← h.2]
        refine clean_arr fun x hx => ?_
        obtain ⟨a, ha, hg⟩ := (mapS_pairs hm).left x hx
        exact ih _ _ (tagFreeL_mem hv a ha) hg
      · simp at h
    simp only [jpack] at h
    split at h
    · exact hatom (by intro _; nofun) (by intro _; nofun) h
    · exact hatom (by intro _; nofun) (by intro _; nofun) h
    · exact hatom (by intro _; nofun) (by intro _; nofun) h
    · exact hatom (by intro _; nofun) (by intro _; nofun) h
    · exact hatom (by intro _; nofun) (by intro _; nofun) h
    · rename_i hl; rw [hl] at hc; simp only [Val.tagFree] at hc; exact hlist hc h
    · rename_i hl; rw [hl] at hc; simp only [Val.tagFree] at hc; exact hlist hc h
    · rename_i d hl
      rw [hl] at hc
      simp only [Val.tagFree] at hc
      split at h
      · next tm m hm =>
        simp only [Prod.mk.injEq, Except.ok.injEq] at h
        rw [← h.2]
        have hk : ∀ e ∈ m, (∃ s, e.1 = .str s ∧ s ≠ encodeKey) ∧ Clean e.2 := by
          intro e he
          obtain ⟨a, ha, ⟨s, h1, h2⟩, hg⟩ := (jpair_gives hm).left e he
          obtain ⟨h3, h4⟩ := tagFreeD_mem hc a ha
          refine ⟨⟨s, h2, ?_⟩, ih _ _ h4 hg⟩
          rcases h3 with ⟨b, hb⟩ | ⟨s', hs, hn⟩
          · rw [hb] at h1; cases h1
          · simp only [jsonName, h1, Except.toOption, Option.some.injEq] at hs
            rw [hs]; exact hn
        refine clean_map (.inl fun e he => .inl (hk e he).1) fun e he => ⟨?_, (hk e he).2⟩
        obtain ⟨s, hs, _⟩ := (hk e he).1
        rw [hs]; exact clean_atom (by intro _; nofun) (by intro _; nofun)
      · simp at h
    · split at h
      · exact hatom (by intro _; nofun) (by intro _; nofun) h
      · exact hdef h
    · exact hdef h

/-! ## Reading a clean map -/

/-- The key of an entry that is a text or bytes. -/
def keyRead : Wire → Val
  | .str s => .str s
  | .bin b => .bytes b
  | _ => .none

theorem unpackM_pairs {R : RecvEnv} : ∀ {m d}, (∀ e ∈ m, (∃ s, e.1 = Wire.str s) ∨ ∃ b, e.1 = .bin b) → unpackM R m = .ok d →
    Pairs (fun e x => x.1 = keyRead e.1 ∧ unpack R e.2 = .ok x.2) m d := by
  intro m
  induction m with
  | nil => intro d _ h; simp only [unpackM, Except.ok.injEq] at h; rw [← h]; exact .nil
  | cons e m ih =>
    obtain ⟨k, w⟩ := e
    intro d hk h
    have h0 : unpack R k = .ok (keyRead k) := by
      rcases hk (k, w) (.head _) with ⟨s, rfl⟩ | ⟨b, rfl⟩ <;> rfl
    rw [unpackM, h0] at h
    simp only at h
    split at h
    · cases h
    split at h
    · cases h
    rename_i v hv
    split at h
    · rename_i hr; cases h
      exact .cons ⟨rfl, hv⟩ (ih (fun e he => hk e (.tail _ he)) hr)
    · cases h

theorem junpackM_pairs {R : RecvEnv} : ∀ {m d}, junpackM R m = .ok d →
    Pairs (fun e x => x.1 = keyRead e.1 ∧ junpack R e.2 = .ok x.2) m d := by
  intro m
  induction m with
  | nil => intro d h; simp only [junpackM, Except.ok.injEq] at h; rw [← h]; exact .nil
  | cons e m ih =>
    obtain ⟨k, w⟩ := e
    intro d h
    cases k with
    | str s =>
      simp only [junpackM] at h
      split at h
      · cases h
      rename_i v hv
      split at h
      · rename_i hr; cases h
        exact .cons ⟨rfl, hv⟩ (ih hr)
      · cases h
    | _ => simp [junpackM] at h

theorem lookupStr_none {d : List (Val × Val)} {k : String} (h : ∀ e ∈ d, e.1 ≠ .str k) : lookupStr d k = none := by
  induction d with
  | nil => rfl
  | cons e d ih =>
    obtain ⟨x, v⟩ := e
    have hr := ih fun e he => h e (.tail _ he)
    cases x <;> simp only [lookupStr] <;> try exact hr
    rename_i s
    rw [if_neg (fun e => h _ (.head _) (by rw [e])), hr]

theorem itemSet_key_mem {d : List (Val × Val)} {k v : Val} : ∀ e ∈ itemSet d k v, e.1 = k ∨ ∃ e' ∈ d, e.1 = e'.1 := by
  intro e he
  have := List.mem_map_of_mem (f := (·.1)) he
  rcases itemSet_keys d k v with h | ⟨h, _⟩
  · rw [h] at this
    obtain ⟨e', h1, h2⟩ := List.mem_map.1 this
    exact .inr ⟨e', h1, h2.symm⟩
  · rw [h, List.mem_append] at this
    rcases this with this | this
    · obtain ⟨e', h1, h2⟩ := List.mem_map.1 this
      exact .inr ⟨e', h1, h2.symm⟩
    · exact .inl (List.mem_singleton.1 this)

theorem dictOf_key_mem {l : List (Val × Val)} {P : Val → Prop} (h : ∀ e ∈ l, P e.1) : ∀ e ∈ dictOf l, P e.1 := by
  unfold dictOf
  suffices H : ∀ acc : List (Val × Val), (∀ e ∈ acc, P e.1) → ∀ e ∈ l.foldl (fun d kv => itemSet d kv.1 kv.2) acc, P e.1 from
    H [] (fun e he => by cases he)
  induction l with
  | nil => exact fun _ h => h
  | cons x l ih =>
    intro acc ha
    refine ih (fun e he => h e (.tail _ he)) _ fun e he => ?_
    rcases itemSet_key_mem e he with h1 | ⟨e', h1, h2⟩
    · rw [h1]; exact h x (.head _)
    · rw [h2]; exact ha e' h1

theorem itemSet_first {k v k' v' : Val} {d : List (Val × Val)} (h : keyEq k k' = false) : itemSet ((k, v) :: d) k' v' = (k, v) :: itemSet d k' v' := by
  simp only [itemSet, h, Bool.false_eq_true, if_false]

theorem dictOf_first {k v : Val} {r : List (Val × Val)} (h : ∀ e ∈ r, keyEq k e.1 = false) : dictOf ((k, v) :: r) = (k, v) :: dictOf r := by
  unfold dictOf
  simp only [List.foldl_cons, itemSet]
  suffices H : ∀ acc : List (Val × Val), r.foldl (fun d kv => itemSet d kv.1 kv.2) ((k, v) :: acc) = (k, v) :: r.foldl (fun d kv => itemSet d kv.1 kv.2) acc from H []
  induction r with
  | nil => exact fun _ => rfl
  | cons x r ih =>
    intro acc
    simp only [List.foldl_cons]
    rw [itemSet_first (h x (.head _))]
    exact ih (fun e he => h e (.tail _ he)) _

/-- What a clean map makes, makes no use of the options of a message. -/
theorem clean_makes {popts : Option (Dict String Val)} {m : List (Wire × Wire)} (hm : CleanMap m) {d} {P : Wire → Val → Prop}
    (hP : ∀ s v, P (.str s) v → v = .str s) (hd : Pairs (fun e x => x.1 = keyRead e.1 ∧ P e.2 x.2) m d) {q}
    (h : decodeMakes popts (dictOf d) = some (.ok q)) :
    ∃ p, (match popts with | none => PObj.new p [] | some o => PObj.received p o) = .ok q := by
  obtain ⟨⟨v, h1, h2⟩, h3⟩ := decodeMakes_some h
  rcases hm with hm | ⟨s, r, rfl, hs, hr⟩ | ⟨a, b, c, x, y, rfl⟩
  · exfalso
    rw [lookupStr_none] at h1
    · cases h1
    · refine dictOf_key_mem (P := fun k => k ≠ .str encodeKey) fun e he => ?_
      obtain ⟨e', he', hk, _⟩ := hd.left e he
      rw [hk]
      rcases hm e' he' with ⟨s, hs, hn⟩ | ⟨b, hb⟩
      · rw [hs]; intro e; exact hn (by simpa [keyRead] using e)
      · rw [hb]; nofun
  · exfalso
    cases hd with
    | cons hx hrest =>
      rename_i x xs
      obtain ⟨xk, xv⟩ := x
      simp only [keyRead] at hx
      have e1 := hx.1
      have e2 := hP _ _ hx.2
      subst e1; subst e2
      rw [dictOf_first] at h1
      · simp only [lookupStr, if_true, Option.some.injEq] at h1
        rw [← h1] at h2
        exact hs (by simpa [Val.text?, Val.core] using h2)
      · intro e he
        obtain ⟨e', he', hk, _⟩ := hrest.left e he
        obtain ⟨k, hk1, hk2⟩ := hr e' he'
        rw [hk, hk1]
        simpa [keyEq, keyRead] using fun e => hk2 e.symm
  · obtain _ | ⟨a0, _ | ⟨a1, _ | ⟨a2, _ | ⟨a3, _ | ⟨a4, _ | ⟨a5, hd⟩⟩⟩⟩⟩⟩ := hd
    cases hd
    rename_i b0 b1 b2 b3 b4 b5
    obtain ⟨k0, v0⟩ := b0; obtain ⟨k1, v1⟩ := b1; obtain ⟨k2, v2⟩ := b2
    obtain ⟨k3, v3⟩ := b3; obtain ⟨k4, v4⟩ := b4; obtain ⟨k5, v5⟩ := b5
    simp only [keyRead] at a0 a1 a2 a3 a4 a5
    obtain ⟨rfl, _⟩ := a0
    obtain ⟨rfl, _⟩ := a1
    obtain ⟨rfl, _⟩ := a2
    obtain ⟨rfl, _⟩ := a3
    obtain ⟨rfl, _⟩ := a4
    obtain ⟨rfl, _⟩ := a5
    have hdict : removeStr (dictOf [(.str encodeKey, v0), (.str "rpc_addr", v1), (.str "obj_id", v2), (.str "ref_id", v3), (.str "type_str", v4), (.str "attributes", v5)]) encodeKey
        = [(.str "rpc_addr", v1), (.str "obj_id", v2), (.str "ref_id", v3), (.str "type_str", v4), (.str "attributes", v5)] := rfl
    rw [hdict] at h3
    have h3 := h3.symm
    unfold PObj.ofDict at h3
    split at h3
    · cases h3
    rename_i p _
    refine ⟨p, ?_⟩
    have hno : optionArgs [(.str "rpc_addr", v1), (.str "obj_id", v2), (.str "ref_id", v3), (.str "type_str", v4), (.str "attributes", v5)] = [] := rfl
    rw [hno] at h3
    unfold PObj.received
    cases hn : PObj.new p [] with
    | error e => rw [hn] at h3; cases h3
    | ok q1 =>
      rw [hn] at h3
      cases popts with
      | none => exact h3
      | some o => exact h3

end Verif
