import Verif.Props.SerializerExample
import Verif.Props.Text
import Verif.Proof.Shape
import Verif.Proof.Base64
import Verif.Proof.SerializerMore
import Verif.Model.Server
import Verif.Proof.LogRemote
/-!
# C98: malformed messages

Everything that reaches `decode` may come from another process. These theorems say, for arbitrary messages, what is refused, with which exception, and that
what is accepted is what the message says.
-/
namespace Verif

/-! ## Specification -/

/-- A date that exists. -/
def RealDate (y m d : Nat) : Prop :=
  1 ≤ y ∧ y ≤ 9999 ∧ 1 ≤ m ∧ m ≤ 12 ∧ 1 ≤ d ∧ d ≤ 31 ∧ (m = 4 ∨ m = 6 ∨ m = 9 ∨ m = 11 → d ≤ 30) ∧
  (m = 2 → d ≤ 29 ∧ (d = 29 → (y % 4 = 0 ∧ y % 100 ≠ 0) ∨ y % 400 = 0))

/-- Values of Python's own classes, except proxies. -/
def Val.plain : Val → Bool
  | .none | .bool _ | .int _ | .float _ | .str _ | .bytes _ | .list _ | .tuple _ | .dict _ | .datetime _ | .date _ => true
  | _ => false

/-- Values of Python's own classes that hold nothing to iterate over. -/
def Val.single : Val → Bool
  | .none | .bool _ | .int _ | .float _ | .datetime _ | .date _ => true
  | _ => false

/-- The field each kind of message is read by first, and the exception for values that cannot be meant. -/
def firstField : String → Option (String × (Val → Option Exc))
  | "ndarray" => some ("dtype", fun | .str _ => none | .bytes _ => some .typeError | v => if v.plain then some .attributeError else none)
  | "pickle" => some ("pickle_str", fun | .bytes _ => none | v => if v.plain then some .typeError else none)
  | "np_number" => some ("dtype", fun v => if v.plain then some .attributeError else none)
  | "datetime" => some ("data", fun | .str _ => none | v => if v.plain then some .typeError else none)
  | "date" => some ("data", fun | .str _ => none | v => if v.plain then some .typeError else none)
  | "tuple" => some ("data", fun v => if v.single then some .typeError else none)
  | _ => none

/-- The shape a value of a message asks for, for an array of `n` elements. -/
def AsksShape (n : Nat) (sv : Val) (sh : List Int) : Prop :=
  (sv = .none ∧ sh = [(n : Int)]) ∨ (∃ i, sv = .int i ∧ sh = [i]) ∨ sv = .list (sh.map .int) ∨ sv = .tuple (sh.map .int)

/-- What becomes of the elements in `data`, of dtype `t`, with a shape: they are arranged in the dimensions the shape leaves possible, if there are such;
a shape that is none is a TypeError (a proxy as shape is asked, C129). -/
def Arranged (data : Bytes) (t : DType) (sv : Val) (x : Except Exc Val) : Prop :=
  (∀ sh full, AsksShape (data.length / t.itemsize) sv sh → Fills sh full → shapeSize full * t.itemsize = data.length →
    ∃ a, x = .ok (.ndarray a) ∧ a.dtype = t ∧ a.shape = full ∧ a.sub = none ∧ a.tobytes = data) ∧
  (∀ sh, AsksShape (data.length / t.itemsize) sv sh → (∀ full, Fills sh full → shapeSize full * t.itemsize ≠ data.length) → x = .error .valueError) ∧
  ((∀ sh, ¬ AsksShape (data.length / t.itemsize) sv sh) → (∀ p, sv ≠ .proxy p) → x = .error .typeError)

/-! ## Lemmas -/

theorem lookupStr_removeStr_ne {j k : String} (hn : j ≠ k) : ∀ d : List (Val × Val), lookupStr (removeStr d j) k = lookupStr d k
  | [] => rfl
  | (k', v) :: d => by
    have ih := lookupStr_removeStr_ne hn d
    cases k' <;> simp only [removeStr, lookupStr, ih]
    rename_i s
    by_cases h : s = j
    · subst h; simp [hn, ih]
    · simp [h, lookupStr, ih]

theorem valid_real (d : Date) : d.valid = true ↔ RealDate d.year d.month d.day := by
  rw [Date.valid_iff]
  unfold RealDate daysInMonth
  constructor
  · rintro ⟨h1, h2, h3, h4, h5, h6⟩
    split at h6
    · split at h6 <;> refine ⟨h1, h2, h3, h4, h5, by omega, by omega, fun _ => ⟨by omega, by omega⟩⟩
    · split at h6 <;> refine ⟨h1, h2, h3, h4, h5, by omega, by omega, by omega⟩
  · rintro ⟨h1, h2, h3, h4, h5, h6, h7, h8⟩
    refine ⟨h1, h2, h3, h4, h5, ?_⟩
    split
    · rename_i hm
      have := h8 hm
      split <;> omega
    · split
      · rename_i h; exact h7 h
      · exact h6

/-! ## C98 -/

/-- **C98** A typed message without the field it is read by first is refused with KeyError, one with a field of another type with the exception of the table. -/
theorem C98_first (R : RecvEnv) (d : List (Val × Val)) (tag f : String) (wrong : Val → Option Exc) (hf : firstField tag = some (f, wrong))
    (ht : lookupStr d encodeKey = some (.str tag)) :
    (lookupStr d f = none → decode R d = .error .keyError) ∧ (∀ v e, lookupStr d f = some v → wrong v = some e → decode R d = .error e) := by
  unfold firstField at hf
  have hne : ∀ k : String, encodeKey ≠ k → lookupStr (removeStr d encodeKey) k = lookupStr d k := fun k h => lookupStr_removeStr_ne h d
  split at hf <;> simp only [Option.some.injEq, Prod.mk.injEq, reduceCtorEq] at hf <;> obtain ⟨rfl, rfl⟩ := hf <;>
    simp only [decode, ht, Val.text?, Val.core, decodeArray, need] <;> rw [hne _ (by decide)] <;> refine ⟨fun h => by rw [h], fun v e h hv => ?_⟩ <;>
    rw [h] <;> cases v <;> simp_all [Val.items, Val.plain, Val.single]

theorem asInts_some : ∀ (l : List Val) (sh : List Int), asInts l = some sh ↔ l = sh.map .int
  | [], sh => by simp [asInts, eq_comm]
  | v :: l, sh => by
    constructor
    · intro h
      cases v <;> simp only [asInts, reduceCtorEq] at h
      cases hl : asInts l with
      | none => simp [hl] at h
      | some r =>
        simp only [hl, Option.map_some, Option.some.injEq] at h
        subst h
        rw [List.map_cons, ← (asInts_some l r).1 hl]
    · intro h
      cases sh with
      | nil => cases h
      | cons i sh =>
        simp only [List.map_cons, List.cons.injEq] at h
        obtain ⟨rfl, h⟩ := h
        simp [asInts, (asInts_some l sh).2 h]

theorem shapeOf_some {n : Nat} {sv : Val} {sh : List Int} : sv.shapeOf n = some sh ↔ AsksShape n sv sh := by
  unfold AsksShape
  cases sv <;> simp only [Val.shapeOf, asInts_some] <;> simp [eq_comm]

theorem buildArray_arranged (data : Bytes) (t : DType) (sv : Val) (h1 : t.kind ≠ .object) (h2 : t.itemsize ≠ 0) (h3 : t.itemsize ∣ data.length) :
    Arranged data t sv (buildArray (.ok data) (.ok t) (some sv)) := by
  have h3' : data.length % t.itemsize = 0 := Nat.mod_eq_zero_of_dvd h3
  have hsz : shapeSize [data.length / t.itemsize] = data.length / t.itemsize := by simp [shapeSize]
  have hmul : data.length / t.itemsize * t.itemsize = data.length := Nat.div_mul_cancel h3
  have hb : buildArray (.ok data) (.ok t) (some sv) =
      match sv.shapeOf (data.length / t.itemsize) with
      | none => .error .typeError
      | some sh =>
        match fixShape (data.length / t.itemsize) sh with
        | some full => .ok (.ndarray ⟨t, full, cStrides t.itemsize full, 0, data, none⟩)
        | none => .error .valueError := by
    simp only [buildArray, frombuffer, h3', ne_eq, not_true, if_false, h1, h2, or_self, hsz, NdArray.reshape]
    cases sv.shapeOf (data.length / t.itemsize) with
    | none => rfl
    | some sh => dsimp only; cases fixShape (data.length / t.itemsize) sh <;> rfl
  have heq : ∀ full : List Nat, shapeSize full * t.itemsize = data.length ↔ shapeSize full = data.length / t.itemsize := by
    intro full
    constructor
    · intro h; rw [← h, Nat.mul_div_cancel _ (by omega)]
    · intro h; rw [h, hmul]
  rw [hb]
  refine ⟨fun sh full hs hf h4 => ?_, fun sh hs hf => ?_, fun hs _ => ?_⟩
  · rw [shapeOf_some.2 hs]
    dsimp only
    rw [fixShape_iff.2 ⟨hf, (heq full).1 h4⟩]
    refine ⟨_, rfl, rfl, rfl, rfl, ?_⟩
    rw [← memory_tobytes (by simp [NdArray.cContiguous, contig_cStrides])]
    simp only [h4]
    apply List.ext_getElem?
    intro i
    by_cases hi : i < data.length
    · rw [List.getElem?_map, List.getElem?_range hi, Option.map_some, List.getElem?_eq_getElem hi]
      simp only [byteAt, Int.zero_add]
      rw [if_pos (by omega), Int.toNat_natCast, List.getD_eq_getElem?_getD, List.getElem?_eq_getElem hi]
      rfl
    · rw [List.getElem?_eq_none (by simp; omega), List.getElem?_eq_none (by omega)]
  · rw [shapeOf_some.2 hs]
    dsimp only
    cases hx : fixShape (data.length / t.itemsize) sh with
    | none => rfl
    | some full =>
      obtain ⟨h5, h6⟩ := fixShape_iff.1 hx
      exact absurd ((heq full).2 h6) (hf full h5)
  · cases hx : sv.shapeOf (data.length / t.itemsize) with
    | none => rfl
    | some sh => exact absurd (shapeOf_some.1 hx) (hs sh)

/-- **C98** A tuple message holds the items of its data: of a list or tuple, the characters of a text, the numbers of bytes, the keys of a dict. -/
theorem C98_tuple (R : RecvEnv) (d : List (Val × Val)) (v : Val) (ht : lookupStr d encodeKey = some (.str "tuple")) (hv : lookupStr d "data" = some v) :
    (∀ l, v = .list l ∨ v = .tuple l → decode R d = .ok (.tuple l)) ∧
    (∀ s, v = .str s → ∃ l, decode R d = .ok (.tuple l) ∧ l.length = s.toList.length ∧ ∀ (i : Nat) (c : Char), s.toList[i]? = some c → ∃ t : String, l[i]? = some (Val.str t) ∧ t.toList = [c]) ∧
    (∀ b, v = .bytes b → ∃ l, decode R d = .ok (.tuple l) ∧ l.length = b.length ∧ ∀ (i : Nat) (x : UInt8), b[i]? = some x → l[i]? = some (Val.int x.toNat)) ∧
    (∀ x, v = .dict x → ∃ l, decode R d = .ok (.tuple l) ∧ l.length = x.length ∧ ∀ (i : Nat) (k w : Val), x[i]? = some (k, w) → l[i]? = some k) := by
  have hdec : decode R d = match v.items with | some l => .ok (.tuple l) | none => .error .typeError := by
    simp only [decode, ht, Val.text?, Val.core, need]
    rw [lookupStr_removeStr_ne (by decide), hv]
    rfl
  rw [hdec]
  refine ⟨?_, ?_, ?_, ?_⟩
  · rintro l (rfl | rfl) <;> rfl
  · rintro s rfl
    refine ⟨_, rfl, by simp, fun i c hc => ⟨String.singleton c, ?_, by simp⟩⟩
    rw [List.getElem?_map, hc]; rfl
  · rintro b rfl
    refine ⟨_, rfl, by simp, fun i c hc => ?_⟩
    rw [List.getElem?_map, hc]; rfl
  · rintro x rfl
    refine ⟨_, rfl, by simp, fun i k w hc => ?_⟩
    rw [List.getElem?_map, hc]; rfl

/-- **C98** An array message with a dtype text and bytes: refused with the exception of numpy if the text is no dtype; with ValueError if the dtype holds objects
or has no size, or if the bytes are no whole number of elements; with KeyError without a shape; with TypeError if the shape is no integer, no list of integers
and not None; with ValueError if the number of elements is another. Otherwise the array has exactly this dtype, these dimensions and these bytes. -/
theorem C98_array (R : RecvEnv) (d : List (Val × Val)) (dt : String) (data : Bytes) (ht : lookupStr d encodeKey = some (.str "ndarray"))
    (hd : lookupStr d "dtype" = some (.str dt)) (hb : lookupStr d "data" = some (.bytes data)) :
    match (if startsWithC '[' dt then R.lib.dtypeExec dt else R.lib.dtypeParse dt) with
    | .error e => decode R d = .error e
    | .ok t =>
      if t.kind = .object ∨ t.itemsize = 0 ∨ ¬ t.itemsize ∣ data.length then decode R d = .error .valueError
      else
        match lookupStr d "shape" with
        | none => decode R d = .error .keyError
        | some sv => Arranged data t sv (decode R d) := by
  have hne : ∀ k : String, encodeKey ≠ k → lookupStr (removeStr d encodeKey) k = lookupStr d k := fun k h => lookupStr_removeStr_ne h d
  have hdec : decode R d = buildArray (.ok data) (if startsWithC '[' dt then R.lib.dtypeExec dt else R.lib.dtypeParse dt) (lookupStr d "shape") := by
    simp only [decode, ht, Val.text?, Val.core, decodeArray, need]
    rw [hne _ (by decide), hne _ (by decide), hne _ (by decide), hd, hb]
    rfl
  rw [hdec]
  generalize (if startsWithC '[' dt then R.lib.dtypeExec dt else R.lib.dtypeParse dt) = x
  cases x with
  | error e => rfl
  | ok t =>
    dsimp only
    by_cases h1 : t.kind = .object
    · simp [h1, buildArray]
    by_cases h2 : t.itemsize = 0
    · simp [h1, h2, buildArray]
    by_cases h3 : t.itemsize ∣ data.length
    · have h3' : data.length % t.itemsize = 0 := Nat.mod_eq_zero_of_dvd h3
      rw [if_neg (by simp [h1, h2, h3])]
      cases lookupStr d "shape" with
      | none => simp only [buildArray, frombuffer, h3', ne_eq, not_true, if_false, h1, h2, or_self]
      | some sv => exact buildArray_arranged data t sv h1 h2 h3
    · have h3' : data.length % t.itemsize ≠ 0 := fun h => h3 (Nat.dvd_of_mod_eq_zero h)
      simp [h1, h2, h3, h3', buildArray, frombuffer]

/-- **C98** An array message may carry another array as its data. Its bytes in C order are taken as if they had been sent, if its memory can be viewed and is in C order;
otherwise ValueError. Data that are neither bytes nor an array: TypeError, unless the dtype holds objects or has no size, which is refused first. -/
theorem C98_array_data (R : RecvEnv) (d : List (Val × Val)) (dt : String) (t : DType) (v : Val) (ht : lookupStr d encodeKey = some (.str "ndarray"))
    (hd : lookupStr d "dtype" = some (.str dt)) (hb : lookupStr d "data" = some v) (hdt : (if startsWithC '[' dt then R.lib.dtypeExec dt else R.lib.dtypeParse dt) = .ok t) :
    (∀ a, v = .ndarray a → a.dtype.bufferable = false ∨ a.cContiguous = false → decode R d = .error .valueError) ∧
    (∀ a d', v = .ndarray a → a.dtype.bufferable = true → a.cContiguous = true → lookupStr d' encodeKey = some (.str "ndarray") → lookupStr d' "dtype" = some (.str dt) →
      lookupStr d' "data" = some (.bytes a.tobytes) → lookupStr d' "shape" = lookupStr d "shape" → decode R d = decode R d') ∧
    ((∀ a, v.core ≠ .ndarray a) → (∀ b, v.core ≠ .bytes b) → decode R d = .error (if t.kind = .object ∨ t.itemsize = 0 then .valueError else .typeError)) := by
  have hne : ∀ (d : List (Val × Val)) (k : String), encodeKey ≠ k → lookupStr (removeStr d encodeKey) k = lookupStr d k := fun d k h => lookupStr_removeStr_ne h d
  have hdec : ∀ (d : List (Val × Val)) (v : Val), lookupStr d encodeKey = some (.str "ndarray") → lookupStr d "dtype" = some (.str dt) → lookupStr d "data" = some v →
      decode R d = buildArray v.buffer (.ok t) (lookupStr d "shape") := by
    intro d v ht hd hb
    simp only [decode, ht, Val.text?, Val.core, decodeArray, need]
    rw [hne _ _ (by decide), hne _ _ (by decide), hne _ _ (by decide), hd, hb, ← hdt]
  rw [hdec d v ht hd hb]
  refine ⟨?_, ?_, ?_⟩
  · rintro a rfl h
    have : Val.buffer (.ndarray a) = .error .valueError := by
      simp only [Val.buffer, Val.core]
      rcases h with h | h <;> simp [h]
    rw [this]
    unfold buildArray
    by_cases hk : t.kind = .object <;> simp [hk]
  · rintro a d' rfl h1 h2 ht' hd' hb' hs'
    rw [hdec d' _ ht' hd' hb', hs']
    have : Val.buffer (.ndarray a) = Val.buffer (.bytes a.tobytes) := by simp [Val.buffer, Val.core, h1, h2]
    rw [this]
  · intro h1 h2
    have : v.buffer = .error .typeError := by
      unfold Val.buffer
      split
      · rename_i b hb; exact absurd hb (h2 b)
      · rename_i a ha; exact absurd ha (h1 a)
      · rfl
    rw [this]
    unfold buildArray
    by_cases hk : t.kind = .object <;> by_cases hz : t.itemsize = 0 <;> simp [hk, hz]

/-- **C98** A date or time message gives a date that exists and a time of the day, or ValueError. -/
theorem C98_dates (R : RecvEnv) (d : List (Val × Val)) (s : String) (hs : lookupStr d "data" = some (.str s)) :
    (lookupStr d encodeKey = some (.str "datetime") →
      decode R d = .error .valueError ∨
      ∃ t : DateTime, decode R d = .ok (.datetime t) ∧ RealDate t.year t.month t.day ∧ t.hour < 24 ∧ t.minute < 60 ∧ t.second < 60 ∧ t.micro < 1000000 ∧ t.tz = none) ∧
    (lookupStr d encodeKey = some (.str "date") →
      decode R d = .error .valueError ∨ ∃ t : Date, decode R d = .ok (.date t) ∧ RealDate t.year t.month t.day) := by
  have hne : ∀ k : String, encodeKey ≠ k → lookupStr (removeStr d encodeKey) k = lookupStr d k := fun k h => lookupStr_removeStr_ne h d
  constructor
  · intro ht
    simp only [decode, ht, Val.text?, Val.core, need]
    rw [hne _ (by decide), hs]
    dsimp only
    cases hp : parseDateTime s.toList with
    | error e =>
      unfold parseDateTime at hp
      split at hp
      · split at hp <;> cases hp
        exact .inl rfl
      · cases hp; exact .inl rfl
    | ok t =>
      refine .inr ⟨t, rfl, ?_⟩
      have htz := C22_timezone_lost _ _ hp
      unfold parseDateTime at hp
      split at hp
      · split at hp
        · rename_i hv
          cases hp
          obtain ⟨h1, h2, h3, h4, h5⟩ := (DateTime.valid_iff _).1 hv
          exact ⟨(valid_real _).1 h1, h2, h3, h4, h5, htz⟩
        · cases hp
      · cases hp
  · intro ht
    simp only [decode, ht, Val.text?, Val.core, need]
    rw [hne _ (by decide), hs]
    dsimp only
    cases hp : parseDate s.toList with
    | error e =>
      unfold parseDate at hp
      split at hp
      · split at hp <;> cases hp
        exact .inl rfl
      · cases hp; exact .inl rfl
    | ok t =>
      refine .inr ⟨t, rfl, ?_⟩
      unfold parseDate at hp
      split at hp
      · split at hp
        · rename_i hv
          cases hp
          exact (valid_real _).1 hv
        · cases hp
      · cases hp

/-- **C98** A numpy number message with a dtype and a value gives a scalar of this dtype and value if their kinds agree (a timedelta loses its unit), else TypeError. -/
theorem C98_number (R : RecvEnv) (d : List (Val × Val)) (dt : DType) (ht : lookupStr d encodeKey = some (.str "np_number"))
    (hd : lookupStr d "dtype" = some (.dtype dt)) :
    (lookupStr d "value" = none → decode R d = .error .keyError) ∧
    (∀ b, lookupStr d "value" = some (.bool b) → decode R d = if dt.kind = .bool then .ok (.npScalar ⟨dt, .bool b⟩) else .error .typeError) ∧
    (∀ i, lookupStr d "value" = some (.int i) →
      decode R d = if dt.kind = .integer then .ok (.npScalar ⟨dt, .int i⟩)
        else if dt.kind = .timedelta then .ok (.npScalar ⟨{ dt with name := "timedelta64" }, .int i⟩) else .error .typeError) ∧
    (∀ f, lookupStr d "value" = some (.float f) →
      decode R d = if dt.kind = .floating then .ok (.npScalar ⟨dt, .float f⟩)
        else if dt.kind = .longdouble then .ok (.npScalar ⟨dt, .other (R.lib.ldOfFloat f)⟩) else .error .typeError) := by
  have hne : ∀ k : String, encodeKey ≠ k → lookupStr (removeStr d encodeKey) k = lookupStr d k := fun k h => lookupStr_removeStr_ne h d
  simp only [decode, ht, Val.text?, Val.core, need]
  rw [hne _ (by decide), hne _ (by decide), hd]
  refine ⟨fun h => by rw [h], fun b h => ?_, fun i h => ?_, fun f h => ?_⟩ <;> rw [h] <;> simp only [npMake] <;> cases hk : dt.kind <;> simp

/-- The exceptions decoding may raise: the four classes of wrong input, binascii's error for wrong base64, the answer of another process that is asked (C129), and what
pickle, numpy and the reading of own proxies raise. -/
def DecodeExc (R : RecvEnv) (e : Exc) : Prop :=
  e ∈ [Exc.keyError, .typeError, .valueError, .attributeError, .other "binascii.Error", .other "RemoteCallException"] ∨
  (∃ b, R.lib.pickleLoads b = .error e) ∨ (∃ n, R.lib.dtypeParse n = .error e) ∨ (∃ n, R.lib.dtypeExec n = .error e) ∨
  ∃ addr unwrap p, R.server = some (addr, unwrap) ∧ unwrap p = .error e

theorem decodeExc_plain {R : RecvEnv} {e : Exc} (h : e = .keyError ∨ e = .typeError ∨ e = .valueError ∨ e = .attributeError ∨ e = .other "binascii.Error") :
    DecodeExc R e := .inl (by rcases h with rfl | rfl | rfl | rfl | rfl <;> simp)

theorem frombuffer_exc {data dt e} (h : frombuffer data dt = .error e) : e = .valueError := by
  unfold frombuffer at h
  repeat' (split at h)
  all_goals first | cases h; rfl | cases h

theorem reshape_exc {a : NdArray} {sh e} (h : a.reshape sh = .error e) : e = .valueError := by
  unfold NdArray.reshape at h
  split at h <;> cases h
  rfl

theorem parseDate_exc {s e} (h : parseDate s = .error e) : e = .valueError := by
  unfold parseDate at h
  repeat' (split at h)
  all_goals first | cases h; rfl | cases h

theorem parseDateTime_exc {s e} (h : parseDateTime s = .error e) : e = .valueError := by
  unfold parseDateTime at h
  repeat' (split at h)
  all_goals first | cases h; rfl | cases h

theorem need_exc {d k e} (h : need d k = .error e) : e = .keyError := by
  unfold need at h
  split at h <;> cases h
  rfl

theorem npMake_exc {L d v e} (h : npMake L d v = .error e) : e = .typeError := by
  unfold npMake at h
  split at h <;> cases h
  rfl

theorem b64decode_exc {l e} (h : b64decode l = .error e) : e = .valueError ∨ e = .other "binascii.Error" := by
  unfold b64decode at h
  split at h
  · exact .inr (b64scan_exc h)
  · cases h; exact .inl rfl

theorem b64_exc {v : Val} {e} (h : v.b64 = .error e) : e = .typeError ∨ e = .valueError ∨ e = .other "binascii.Error" := by
  unfold Val.b64 at h
  split at h
  · exact .inr (b64decode_exc h)
  · exact .inr (.inr (b64scan_exc h))
  · split at h
    · exact .inr (.inr (b64scan_exc h))
    · cases h; exact .inr (.inl rfl)
  · cases h; exact .inl rfl

theorem buffer_exc {v : Val} {e} (h : v.buffer = .error e) : e = .typeError ∨ e = .valueError := by
  unfold Val.buffer at h
  split at h
  · cases h
  · split at h
    · cases h
    · cases h; exact .inr rfl
  · cases h; exact .inl rfl

theorem buildArray_exc {R : RecvEnv} {data dt shape e} (hd : ∀ e, dt = .error e → DecodeExc R e) (hb : ∀ e, data = .error e → DecodeExc R e)
    (h : buildArray data dt shape = .error e) : DecodeExc R e := by
  unfold buildArray at h
  split at h
  · cases h; exact hd _ rfl
  · split at h
    · rename_i he
      cases h
      split at he
      · cases he; exact decodeExc_plain (by simp)
      · exact hb _ he
    · split at h
      · rename_i he; cases h; exact decodeExc_plain (by simp [frombuffer_exc he])
      · split at h
        · cases h; exact decodeExc_plain (by simp)
        · split at h
          · cases h; exact decodeExc_plain (by simp)
          · split at h
            · cases h
            · rename_i he; cases h; exact decodeExc_plain (by simp [reshape_exc he])

theorem decodeProxy_exc {R : RecvEnv} {d e} (h : decodeProxy R d = .error e) : DecodeExc R e := by
  unfold decodeProxy at h
  split at h
  · rename_i he
    cases h
    unfold proxyOfDict at he
    repeat' (split at he)
    all_goals first | cases he; exact decodeExc_plain (by simp) | cases he
  · split at h
    · split at h
      · rename_i hs _
        exact .inr (.inr (.inr (.inr ⟨_, _, _, hs, h⟩)))
      · cases h
    · cases h

theorem dtype_exc {R : RecvEnv} {dt e} (h : (if startsWithC '[' dt then R.lib.dtypeExec dt else R.lib.dtypeParse dt) = .error e) : DecodeExc R e := by
  split at h
  · exact .inr (.inr (.inr (.inl ⟨_, h⟩)))
  · exact .inr (.inr (.inl ⟨_, h⟩))

theorem decode_exc {R : RecvEnv} {d e} (h : decode R d = .error e) : DecodeExc R e := by
  unfold decode at h
  split at h
  · cases h
  · cases h
  · cases h; exact .inl (by simp)
  · dsimp only at h
    split at h
    · unfold decodeArray at h
      split at h
      · rename_i he; cases h; exact decodeExc_plain (by simp [need_exc he])
      · split at h
        · rename_i he; cases h; exact decodeExc_plain (by simp [need_exc he])
        · exact buildArray_exc (fun _ => dtype_exc) (fun _ he => decodeExc_plain (by rcases buffer_exc he with rfl | rfl <;> simp)) h
      · cases h; exact decodeExc_plain (by simp)
      · cases h; exact decodeExc_plain (by simp)
    · split at h
      · exact .inr (.inl ⟨_, h⟩)
      · cases h; exact decodeExc_plain (by simp)
      · rename_i he; cases h; exact decodeExc_plain (by simp [need_exc he])
    · split at h
      · split at h
        · exact decodeExc_plain (by simp [npMake_exc h])
        · rename_i he; cases h; exact decodeExc_plain (by simp [need_exc he])
      · cases h; exact decodeExc_plain (by simp)
      · rename_i he; cases h; exact decodeExc_plain (by simp [need_exc he])
    · split at h
      · split at h
        · cases h
        · rename_i he; cases h; exact decodeExc_plain (by simp [parseDateTime_exc he])
      · cases h; exact decodeExc_plain (by simp)
      · rename_i he; cases h; exact decodeExc_plain (by simp [need_exc he])
    · split at h
      · split at h
        · cases h
        · rename_i he; cases h; exact decodeExc_plain (by simp [parseDate_exc he])
      · cases h; exact decodeExc_plain (by simp)
      · rename_i he; cases h; exact decodeExc_plain (by simp [need_exc he])
    · split at h
      · split at h
        · cases h
        · cases h; exact decodeExc_plain (by simp)
      · rename_i he; cases h; exact decodeExc_plain (by simp [need_exc he])
    · cases h
    · exact decodeProxy_exc h
    · cases h

theorem dtypeArg_exc {R : RecvEnv} {v e} (h : dtypeArg R.lib v = .error e) : DecodeExc R e := by
  unfold dtypeArg at h
  split at h
  · exact .inr (.inr (.inl ⟨_, h⟩))
  · exact .inr (.inr (.inl ⟨_, h⟩))
  · cases h; exact decodeExc_plain (by simp)

theorem b64_plain {R : RecvEnv} {v : Val} {e} (h : v.b64 = .error e) : DecodeExc R e :=
  decodeExc_plain (by rcases b64_exc h with rfl | rfl | rfl <;> simp)

theorem jdecode_exc {R : RecvEnv} {d e} (h : jdecode R d = .error e) : DecodeExc R e := by
  unfold jdecode at h
  split at h
  · split at h
    · rename_i he; cases h; exact decodeExc_plain (by simp [need_exc he])
    · split at h
      · rename_i he; cases h; exact b64_plain he
      · split at h
        · exact buildArray_exc (fun _ => dtypeArg_exc) (fun _ h => by cases h) h
        · rename_i he; cases h; exact decodeExc_plain (by simp [need_exc he])
  · split at h
    · rename_i he; cases h; exact decodeExc_plain (by simp [need_exc he])
    · split at h
      · cases h
      · rename_i he; cases h; exact b64_plain he
  · exact decode_exc h

mutual
theorem unpack_exc {R : RecvEnv} : ∀ (w : Wire) {e}, unpack R w = .error e → DecodeExc R e
  | .nil, _, h => by simp [unpack] at h
  | .bool _, _, h => by simp [unpack] at h
  | .int _, _, h => by simp [unpack] at h
  | .float _, _, h => by simp [unpack] at h
  | .str _, _, h => by simp [unpack] at h
  | .bin _, _, h => by simp [unpack] at h
  | .arr l, e, h => by
    rw [unpack] at h
    split at h
    · cases h
    · rename_i he; cases h; exact unpackL_exc l he
  | .map m, e, h => by
    rw [unpack] at h
    split at h
    · exact decode_exc h
    · rename_i he; cases h; exact unpackM_exc m he
theorem unpackL_exc {R : RecvEnv} : ∀ (l : List Wire) {e}, unpackL R l = .error e → DecodeExc R e
  | [], _, h => by simp [unpackL] at h
  | w :: ws, e, h => by
    rw [unpackL] at h
    split at h
    · rename_i he; cases h; exact unpack_exc w he
    · split at h
      · cases h
      · rename_i he; cases h; exact unpackL_exc ws he
theorem unpackM_exc {R : RecvEnv} : ∀ (m : List (Wire × Wire)) {e}, unpackM R m = .error e → DecodeExc R e
  | [], _, h => by simp [unpackM] at h
  | (k, w) :: r, e, h => by
    rw [unpackM] at h
    split at h
    · rename_i he; cases h; exact unpack_exc k he
    · split at h
      · cases h; exact decodeExc_plain (by simp)
      · split at h
        · rename_i he; cases h; exact unpack_exc w he
        · split at h
          · cases h
          · rename_i he; cases h; exact unpackM_exc r he
end

mutual
theorem junpack_exc {R : RecvEnv} : ∀ (w : Wire) {e}, junpack R w = .error e → DecodeExc R e
  | .nil, _, h => by simp [junpack] at h
  | .bool _, _, h => by simp [junpack] at h
  | .int _, _, h => by simp [junpack] at h
  | .float _, _, h => by simp [junpack] at h
  | .str _, _, h => by simp [junpack] at h
  | .bin _, _, h => by rw [junpack] at h; cases h; exact decodeExc_plain (by simp)
  | .arr l, e, h => by
    rw [junpack] at h
    split at h
    · cases h
    · rename_i he; cases h; exact junpackL_exc l he
  | .map m, e, h => by
    rw [junpack] at h
    split at h
    · exact jdecode_exc h
    · rename_i he; cases h; exact junpackM_exc m he
theorem junpackL_exc {R : RecvEnv} : ∀ (l : List Wire) {e}, junpackL R l = .error e → DecodeExc R e
  | [], _, h => by simp [junpackL] at h
  | w :: ws, e, h => by
    rw [junpackL] at h
    split at h
    · rename_i he; cases h; exact junpack_exc w he
    · split at h
      · cases h
      · rename_i he; cases h; exact junpackL_exc ws he
theorem junpackM_exc {R : RecvEnv} : ∀ (m : List (Wire × Wire)) {e}, junpackM R m = .error e → DecodeExc R e
  | [], _, h => by simp [junpackM] at h
  | (k, w) :: r, e, h => by
    cases k with
    | str s =>
      rw [junpackM] at h
      split at h
      · rename_i he; cases h; exact junpack_exc w he
      · split at h
        · cases h
        · rename_i he; cases h; exact junpackM_exc r he
    | _ => simp only [junpackM, Except.error.injEq] at h; subst h; exact decodeExc_plain (by simp)
end

/-- **C98** Whatever a message holds, decoding it raises one of the four exceptions for wrong input, binascii's error, or what pickle, numpy or the table of
own objects raise: nothing else. -/
theorem C98_exceptions (R : RecvEnv) (w : Wire) (e : Exc) : (msgpackLoads R w = .error e → DecodeExc R e) ∧ (jsonLoads R w = .error e → DecodeExc R e) :=
  ⟨unpack_exc w, junpack_exc w⟩

/-- What base64 decoding makes of the data field of a JSON message: a text or bytes must be base64, where the bytes may be anything but a text must be ASCII. -/
def DecodedData (v : Val) (x : Except Exc Bytes) : Prop :=
  (∀ s : String, v = .str s → (∀ c ∈ s.toList, c.toNat < 128) →
    (∀ b, B64Text s.toList b → x = .ok b) ∧ ((∀ b, ¬ B64Text s.toList b) → x = .error (.other "binascii.Error"))) ∧
  (∀ s : String, v = .str s → ¬ (∀ c ∈ s.toList, c.toNat < 128) → x = .error .valueError) ∧
  (∀ s : Bytes, v = .bytes s →
    (∀ b, B64Text (s.map fun i => Char.ofNat i.toNat) b → x = .ok b) ∧
    ((∀ b, ¬ B64Text (s.map fun i => Char.ofNat i.toNat) b) → x = .error (.other "binascii.Error"))) ∧
  ((∀ s, v ≠ .str s) → (∀ s, v ≠ .bytes s) → v.plain = true → x = .error .typeError)

theorem b64_decoded (v : Val) : DecodedData v v.b64 := by
  have key : ∀ s : List Char, (∀ b, B64Text s b → b64scan 0 0 0 s = .ok b) ∧ ((∀ b, ¬ B64Text s b) → b64scan 0 0 0 s = .error (.other "binascii.Error")) := by
    intro s
    refine ⟨fun b h => b64scan_iff.2 h, fun h => ?_⟩
    cases hs : b64scan 0 0 0 s with
    | ok b => exact absurd (b64scan_iff.1 hs) (h b)
    | error e => rw [b64scan_exc hs]
  refine ⟨?_, ?_, ?_, fun h1 h2 h3 => ?_⟩
  · rintro s rfl ha
    simp only [Val.b64, Val.core, b64decode]
    rw [if_pos (by simpa using ha)]
    exact key _
  · rintro s rfl ha
    simp only [Val.b64, Val.core, b64decode]
    rw [if_neg (by simpa using ha)]
  · rintro s rfl
    exact key _
  · cases v <;> first | rfl | simp_all [Val.plain]

/-- **C98** JSON messages: arrays and bytes without data are refused with KeyError. Otherwise the data are base64 (`DecodedData`): bytes are just them, and an
array that cannot be read for them is refused the same way. An array needs a dtype as well. -/
theorem C98_json_first (R : RecvEnv) (d : List (Val × Val)) (tag : String) (htag : tag = "ndarray" ∨ tag = "bytes") (ht : lookupStr d encodeKey = some (.str tag)) :
    (lookupStr d "data" = none → jdecode R d = .error .keyError) ∧
    (∀ v, lookupStr d "data" = some v → ∃ x, DecodedData v x ∧
      (∀ e, x = .error e → jdecode R d = .error e) ∧
      (∀ b, x = .ok b → tag = "bytes" → jdecode R d = .ok (.bytes b)) ∧
      (∀ b, x = .ok b → tag = "ndarray" → lookupStr d "dtype" = none → jdecode R d = .error .keyError)) := by
  rcases htag with rfl | rfl <;> simp only [jdecode, ht, Option.bind_some, Val.text?, Val.core, need] <;>
    refine ⟨fun h => by rw [h], fun v h => ⟨v.b64, b64_decoded v, fun e he => ?_, fun b hb htg => ?_, fun b hb htg hd => ?_⟩⟩
  · rw [h]; dsimp only; rw [he]
  · simp at htg
  · rw [h]; dsimp only; rw [hb, hd]
  · rw [h]; dsimp only; rw [he]
  · rw [h]; dsimp only; rw [hb]
  · simp at htg

/-- **C98** A JSON array whose data are base64 of `data`: the dtype is a text numpy knows, or None for float64, else it is refused with TypeError or as
numpy refuses the text. Sizes and shapes are as in the other format. -/
theorem C98_json_array (R : RecvEnv) (d : List (Val × Val)) (v dv : Val) (data : Bytes) (ht : lookupStr d encodeKey = some (.str "ndarray"))
    (hb : lookupStr d "data" = some v) (hv : v.b64 = .ok data) (hd : lookupStr d "dtype" = some dv) :
    (∀ x, (∃ s, dv = .str s ∧ x = R.lib.dtypeParse s) ∨ (dv = .none ∧ x = R.lib.dtypeParse "float64") →
      match x with
      | .error e => jdecode R d = .error e
      | .ok t =>
        if t.kind = .object ∨ t.itemsize = 0 ∨ ¬ t.itemsize ∣ data.length then jdecode R d = .error .valueError
        else
          match lookupStr d "shape" with
          | none => jdecode R d = .error .keyError
          | some sv => Arranged data t sv (jdecode R d)) ∧
    ((∀ s, dv ≠ .str s) → dv ≠ .none → dv.plain = true → (∀ x, dv ≠ .dict x) → jdecode R d = .error .typeError) := by
  have hdec : jdecode R d = buildArray (.ok data) (dtypeArg R.lib dv) (lookupStr d "shape") := by
    simp only [jdecode, ht, Option.bind_some, Val.text?, Val.core, need, hb, hv, hd]
  rw [hdec]
  constructor
  · intro x hx
    have hx : dtypeArg R.lib dv = x := by
      rcases hx with ⟨s, rfl, rfl⟩ | ⟨rfl, rfl⟩ <;> rfl
    rw [hx]
    cases x with
    | error e => rfl
    | ok t =>
      dsimp only
      by_cases h1 : t.kind = .object
      · simp [h1, buildArray]
      by_cases h2 : t.itemsize = 0
      · simp [h1, h2, buildArray]
      by_cases h3 : t.itemsize ∣ data.length
      · have h3' : data.length % t.itemsize = 0 := Nat.mod_eq_zero_of_dvd h3
        rw [if_neg (by simp [h1, h2, h3])]
        cases lookupStr d "shape" with
        | none => simp only [buildArray, frombuffer, h3', ne_eq, not_true, if_false, h1, h2, or_self]
        | some sv => exact buildArray_arranged data t sv h1 h2 h3
      · have h3' : data.length % t.itemsize ≠ 0 := fun h => h3 (Nat.dvd_of_mod_eq_zero h)
        simp [h1, h2, h3, h3', buildArray, frombuffer]
  · intro h1 h2 h3 h4
    have : dtypeArg R.lib dv = .error .typeError := by cases dv <;> first | rfl | simp_all [Val.plain]
    rw [this]; rfl

/-- What a log record has if its message does not say. -/
def recordDefault : String → Option Val
  | "name" | "levelno" | "exc_info" | "exc_text" | "stack_info" | "funcName" => some .none
  | "msg" | "pathname" => some (.str "")
  | "args" => some (.tuple [])
  | "levelname" => some (.str "Level None")
  | "lineno" => some (.int 0)
  | _ => none

theorem defaultRecord_get (k : String) : defaultRecord.get? k = recordDefault k := by
  unfold recordDefault
  split <;> first | rfl | simp_all [defaultRecord, Dict.get?, eq_comm]

/-- A sequence of two, of those JSON has: an array, a text of two characters, an object with two keys. -/
inductive TwoOf : Val → Val → Val → Prop
  | arr (k x : Val) : TwoOf (.list [k, x]) k x
  | text (a b : Char) : TwoOf (.str (String.ofList [a, b])) (.str (String.singleton a)) (.str (String.singleton b))
  | obj (k v k' v' : Val) : TwoOf (.dict [(k, v), (k', v')]) k k'

theorem TwoOf.items {v k x : Val} (h : TwoOf v k x) : v.items = some [k, x] := by
  cases h with
  | arr => rfl
  | text a b => simp [Val.items]
  | obj => rfl

/-- Keys that cannot be hashed. -/
def Val.unhashable : Val → Prop
  | .list _ => True
  | .dict _ => True
  | _ => False

/-- The fields after one pair. -/
def Fields.take (d : Fields) (k x : Val) : Fields := match k with | .str s => d.set s x | _ => d

theorem updateSeq_cons {d : Fields} {v k x : Val} (l : List Val) (h : TwoOf v k x) (hk : ¬ k.unhashable) :
    updateSeq d (v :: l) = updateSeq (d.take k x) l := by
  simp only [updateSeq, h.items]
  cases k <;> first | rfl | exact absurd trivial hk

theorem updateSeq_append (ps : List (Val × Val × Val)) : ∀ (d : Fields) (l : List Val), (∀ p ∈ ps, TwoOf p.1 p.2.1 p.2.2 ∧ ¬ p.2.1.unhashable) →
    ∃ d', updateSeq d (ps.map (·.1) ++ l) = updateSeq d' l ∧ ∀ k : String,
      (∃ ps₁ y x ps₂, ps = ps₁ ++ (y, .str k, x) :: ps₂ ∧ (∀ p ∈ ps₂, p.2.1 ≠ .str k) ∧ d'.get? k = some x) ∨ (∀ p ∈ ps, p.2.1 ≠ .str k) ∧ d'.get? k = d.get? k := by
  induction ps with
  | nil => intro d l _; exact ⟨d, rfl, fun k => Or.inr ⟨by simp, rfl⟩⟩
  | cons p ps ih =>
    intro d l h
    obtain ⟨v, k, x⟩ := p
    obtain ⟨h1, h2⟩ := h (v, k, x) (by simp)
    obtain ⟨d', h3, h4⟩ := ih (d.take k x) l fun p hp => h p (by simp [hp])
    refine ⟨d', by rw [List.map_cons, List.cons_append, updateSeq_cons _ h1 h2]; exact h3, fun k' => ?_⟩
    rcases h4 k' with ⟨ps₁, y, z, ps₂, e, hn, hg⟩ | ⟨hn, hg⟩
    · exact Or.inl ⟨(v, k, x) :: ps₁, y, z, ps₂, by rw [e]; rfl, hn, hg⟩
    · by_cases hk : k = .str k'
      · subst hk
        refine Or.inl ⟨[], v, x, ps, rfl, hn, ?_⟩
        rw [hg]; simp only [Fields.take]; rw [Dict.get?_set, if_pos rfl]
      · refine Or.inr ⟨fun p hp => ?_, ?_⟩
        · rcases List.mem_cons.1 hp with rfl | hp
          · exact hk
          · exact hn p hp
        · rw [hg]
          cases k <;> try rfl
          rename_i s
          simp only [Fields.take]
          rw [Dict.get?_set, if_neg]
          rintro rfl; exact hk rfl

/-- **C98** A log message that is no JSON is refused with ValueError, and so is a text that is not empty; numbers, booleans and null with TypeError. The empty text gives a record with
Python's defaults. From an object the record has every field it holds, and the default for the others. -/
theorem C98_log (m : Option Wire) :
    (m = none → readRecord m = .error .valueError) ∧
    (∀ w v, m = some w → plainLoads w = .ok v → (v = .none ∨ (∃ i, v = .int i) ∨ (∃ b, v = .bool b) ∨ ∃ f, v = .float f) → readRecord m = .error .typeError) ∧
    (∀ w t, m = some w → plainLoads w = .ok (.str t) → if t = "" then ∃ r, readRecord m = .ok r ∧ ∀ k, r.get? k = recordDefault k else readRecord m = .error .valueError) ∧
    (∀ w (d : Fields), m = some w → plainLoads w = .ok (Fields.val d) → d.WF →
      ∃ r, readRecord m = .ok r ∧ ∀ k, r.get? k = match d.get? k with | some v => some v | none => recordDefault k) := by
  refine ⟨fun h => by rw [h]; rfl, fun w v h hp hv => ?_, fun w t h hp => ?_, fun w d h hp hd => ?_⟩
  · subst h
    rcases hv with rfl | ⟨i, rfl⟩ | ⟨b, rfl⟩ | ⟨f, rfl⟩ <;> simp [readRecord, hp, Val.items]
  · subst h
    split
    · rename_i ht
      subst ht
      exact ⟨defaultRecord, by simp [readRecord, hp, Val.items, updateSeq], defaultRecord_get⟩
    · rename_i ht
      cases hl : t.toList with
      | nil => exact absurd (String.toList_inj.1 (hl.trans (by decide))) ht
      | cons c r => simp [readRecord, hp, Val.items, hl, updateSeq]
  · subst h
    obtain ⟨r, h1, h2⟩ := update_get d defaultRecord hd
    refine ⟨r, by simp only [readRecord, hp, Fields.val]; exact h1, fun k => ?_⟩
    rw [h2 k, defaultRecord_get]; rfl

/-- **C98** A log message may also be an array of pairs of a name and a value: the record has the last value given for a name, and the default for names that are not given; names
that are no text do not count. The first item that is no such pair decides how the message is refused: TypeError for one that is no sequence or whose name is an array or an object,
ValueError for a sequence of another length. -/
theorem C98_log_array (w : Wire) (ps : List (Val × Val × Val)) (l : List Val) (h : ∀ p ∈ ps, TwoOf p.1 p.2.1 p.2.2 ∧ ¬ p.2.1.unhashable)
    (hw : plainLoads w = .ok (.list (ps.map (·.1) ++ l))) :
    (l = [] → ∃ r, readRecord (some w) = .ok r ∧ ∀ k : String,
      (∃ ps₁ y x ps₂, ps = ps₁ ++ (y, .str k, x) :: ps₂ ∧ (∀ p ∈ ps₂, p.2.1 ≠ .str k) ∧ r.get? k = some x) ∨ (∀ p ∈ ps, p.2.1 ≠ .str k) ∧ r.get? k = recordDefault k) ∧
    (∀ v l', l = v :: l' → (v = .none ∨ (∃ i, v = .int i) ∨ (∃ b, v = .bool b) ∨ ∃ f, v = .float f) → readRecord (some w) = .error .typeError) ∧
    (∀ v l' k x, l = v :: l' → TwoOf v k x → k.unhashable → readRecord (some w) = .error .typeError) ∧
    (∀ v l', l = v :: l' → (∃ q, v = .list q ∧ q.length ≠ 2) ∨ (∃ q, v = .dict q ∧ q.length ≠ 2) ∨ (∃ q : String, v = .str q ∧ q.toList.length ≠ 2) →
      readRecord (some w) = .error .valueError) := by
  obtain ⟨d, h1, h2⟩ := updateSeq_append ps defaultRecord l h
  have hr : readRecord (some w) = updateSeq d l := by simp only [readRecord, hw, Val.items]; exact h1
  rw [hr]
  refine ⟨?_, ?_, ?_, ?_⟩
  · rintro rfl
    refine ⟨d, rfl, fun k => ?_⟩
    have := h2 k
    rwa [defaultRecord_get] at this
  · rintro v l' rfl hv
    rcases hv with rfl | ⟨i, rfl⟩ | ⟨b, rfl⟩ | ⟨f, rfl⟩ <;> simp [Val.items, updateSeq]
  · rintro v l' k x rfl hv hk
    simp only [updateSeq, hv.items]
    cases k <;> first | rfl | exact absurd hk id
  · have key : ∀ v l' q, v.items = some q → q.length ≠ 2 → updateSeq d (v :: l') = .error .valueError := by
      intro v l' q hv hq
      simp only [updateSeq, hv]
      match q, hq with
      | [], _ => rfl
      | [a], _ => cases a <;> rfl
      | [a, b], h => exact absurd rfl h
      | a :: b :: c :: r, _ => cases a <;> rfl
    rintro v l' rfl hv
    rcases hv with ⟨q, rfl, hq⟩ | ⟨q, rfl, hq⟩ | ⟨q, rfl, hq⟩
    · exact key _ _ q rfl hq
    · exact key _ _ _ rfl (by simpa using hq)
    · exact key _ _ _ rfl (by simpa using hq)

/-- **C98** A record to be forwarded without arguments, or with arguments that have no length, cannot be sent: KeyError or TypeError. -/
theorem C98_log_args (fmt) (N : LogNames) (r : Fields) :
    (r.get? "args" = none → forwardFields fmt N r = .error .keyError) ∧
    (∀ v, r.get? "args" = some v → (v = .none ∨ (∃ i, v = .int i) ∨ (∃ b, v = .bool b) ∨ ∃ f, v = .float f) → forwardFields fmt N r = .error .typeError) := by
  constructor
  · intro h; simp [forwardFields, h]
  · rintro v h (rfl | ⟨i, rfl⟩ | ⟨b, rfl⟩ | ⟨f, rfl⟩) <;> simp [forwardFields, h, Val.pyLen, Val.core]

/-! ## Concrete cases -/

/-- a tuple message whose data is missing, and one whose data is a number -/
example (R : RecvEnv) : firstField "tuple" ≠ none ∧ decode R [(.str encodeKey, .str "tuple")] = .error .keyError ∧
    decode R [(.str encodeKey, .str "tuple"), (.str "data", .int 1)] = .error .typeError := ⟨by decide, rfl, rfl⟩
/-- a date that does not exist -/
example (R : RecvEnv) : decode R [(.str encodeKey, .str "date"), (.str "data", .str "2023-02-29")] = .error .valueError := by
  have h : parseDate "2023-02-29".toList = .error .valueError := by decide +kernel
  simp only [decode, lookupStr, removeStr, encodeKey, Val.text?, Val.core, need, String.reduceEq, if_true, if_false, h]
example : RealDate 2024 2 29 ∧ ¬ RealDate 2023 2 29 := by unfold RealDate; omega
/-- a log message `[["name", "a"], "xy", ["name", "b"]]` names the record twice -/
def Ex.logPairs : Wire := .arr [.arr [.str "name", .str "a"], .str "xy", .arr [.str "name", .str "b"]]
def Ex.logPairsOf : List (Val × Val × Val) := [(.list [.str "name", .str "a"], .str "name", .str "a"), (.str "xy", .str "x", .str "y"), (.list [.str "name", .str "b"], .str "name", .str "b")]
theorem Ex.logPairs_two : ∀ p ∈ Ex.logPairsOf, TwoOf p.1 p.2.1 p.2.2 ∧ ¬ p.2.1.unhashable := by
  intro p hp
  simp only [Ex.logPairsOf, List.mem_cons, List.not_mem_nil, or_false] at hp
  rcases hp with rfl | rfl | rfl
  · exact ⟨.arr _ _, id⟩
  · exact ⟨.text 'x' 'y', id⟩
  · exact ⟨.arr _ _, id⟩
example := C98_log_array Ex.logPairs Ex.logPairsOf [] Ex.logPairs_two rfl
example : (match readRecord (some Ex.logPairs) with | .ok r => r.get? "name" = some (.str "b") ∧ r.get? "x" = some (.str "y") | .error _ => False) := ⟨rfl, rfl⟩
/-- a fourth item that is a number, or an array of three -/
example := (C98_log_array (.arr [.arr [.str "name", .str "a"], .str "xy", .arr [.str "name", .str "b"], .int 3]) Ex.logPairsOf [.int 3] Ex.logPairs_two rfl).2.1 (.int 3) [] rfl (.inr (.inl ⟨3, rfl⟩))
example := (C98_log_array (.arr [.arr [.str "name", .str "a"], .str "xy", .arr [.str "name", .str "b"], .arr [.nil, .nil, .nil]]) Ex.logPairsOf
  [.list [.none, .none, .none]] Ex.logPairs_two rfl).2.2.2 _ [] rfl (.inl ⟨_, rfl, by simp⟩)
example := (C98_log_array (.arr [.arr [.arr [], .nil]]) [] [.list [.list [], .none]] (by simp) rfl).2.2.1 _ [] _ _ rfl (.arr _ _) trivial
/-- an empty log message gives a record with the defaults -/
example : (match readRecord (some (.map [])) with | .ok r => r.get? "lineno" = some (.int 0) | .error _ => False) := rfl

namespace Ex

/-! ## The theorems on these cases -/

/-- The part of `lookupStr` in these cases. -/
theorem lookupStr_cons (k s : String) (v : Val) (d : List (Val × Val)) : lookupStr ((.str k, v) :: d) s = if k = s then some v else lookupStr d s := by
  simp [lookupStr]

def dTuple : List (Val × Val) := [(.str encodeKey, .str "tuple"), (.str "data", .list [.int 1, .str "x"])]
def dArray (n : Int) : List (Val × Val) :=
  [(.str encodeKey, .str "ndarray"), (.str "dtype", .str "<u1"), (.str "data", .bytes [1, 2, 3, 4]), (.str "shape", .list [.int 2, .int n])]
def dDate : List (Val × Val) := [(.str encodeKey, .str "date"), (.str "data", .str "2023-02-29")]
def dNumber (v : Val) : List (Val × Val) := [(.str encodeKey, .str "np_number"), (.str "dtype", .dtype ⟨"int64", 8, .integer, true⟩), (.str "value", v)]
def dBytes : List (Val × Val) := [(.str encodeKey, .str "bytes"), (.str "data", .str "AQI=")]
def dJArray : List (Val × Val) :=
  [(.str encodeKey, .str "ndarray"), (.str "dtype", .str "uint8"), (.str "data", .str "AQI="), (.str "shape", .list [.int 2])]

example := fun R => C98_first R dTuple "tuple" "data" _ rfl (by simp [dTuple, lookupStr_cons])
example := fun R => C98_tuple R dTuple (.list [.int 1, .str "x"]) (by simp [dTuple, lookupStr_cons]) (by simp [dTuple, lookupStr_cons, encodeKey])
example := fun R n => C98_array R (dArray n) "<u1" [1, 2, 3, 4] (by simp [dArray, lookupStr_cons]) (by simp [dArray, lookupStr_cons, encodeKey]) (by simp [dArray, lookupStr_cons, encodeKey])
/-- An array message whose data is an array of two rows, the second time in columns. -/
def dNested (st : List Int) : List (Val × Val) :=
  [(.str encodeKey, .str "ndarray"), (.str "dtype", .str "<u1"), (.str "data", .ndarray ⟨⟨"uint8", 1, .integer, true⟩, [2, 2], st, 0, [1, 2, 3, 4], none⟩), (.str "shape", .list [.int 4])]
example := fun (R : RecvEnv) st t => C98_array_data R (dNested st) "<u1" t _ (by simp [dNested, lookupStr_cons]) (by simp [dNested, lookupStr_cons, encodeKey])
  (by simp [dNested, lookupStr_cons, encodeKey]; rfl)
example : (NdArray.cContiguous ⟨⟨"uint8", 1, .integer, true⟩, [2, 2], [2, 1], 0, [1, 2, 3, 4], none⟩) = true ∧
    (NdArray.cContiguous ⟨⟨"uint8", 1, .integer, true⟩, [2, 2], [1, 2], 0, [1, 2, 3, 4], none⟩) = false := by decide +kernel
example := fun R => (C98_dates R dDate "2023-02-29" (by simp [dDate, lookupStr_cons, encodeKey])).2 (by simp [dDate, lookupStr_cons])
example := fun R v => C98_number R (dNumber v) ⟨"int64", 8, .integer, true⟩ (by simp [dNumber, lookupStr_cons]) (by simp [dNumber, lookupStr_cons, encodeKey])
example := fun R => C98_json_first R dBytes "bytes" (Or.inr rfl) (by simp [dBytes, lookupStr_cons])
example := fun R => C98_json_array R dJArray (.str "AQI=") (.str "uint8") [1, 2] (by simp [dJArray, lookupStr_cons]) (by simp [dJArray, lookupStr_cons, encodeKey])
  (by rfl) (by simp [dJArray, lookupStr_cons, encodeKey])

end Ex

end Verif
