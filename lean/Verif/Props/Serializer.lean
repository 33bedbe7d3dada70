import Verif.Proof.Transport
import Verif.Model.Unwrap
import Verif.Props.SerializerExample
/-!
# C17-C21, C23, C24: transport of values

`Link L E R` describes the two ends, `Reach`/`Alive` the sender's reference table when it starts to send.
-/
namespace Verif
open Ex

/-! ## C17 -/

/-- **C17.** Whatever `dumps` produces for a supported value, `loads` turns into what the specification
`Arrives` allows: same types and values at every depth. -/
theorem C17_msgpack_transport {L E R h t} (hl : Link L E R) (hr : Reach E.idOf h t) (ha : Alive E h) {v t' w}
    (hs : Sendable R v) (hd : msgpackDumps E t v = (t', .ok w)) :
    ∃ v', msgpackLoads R w = .ok v' ∧ Arrives E.tys (ByProxy E R t') v v' :=
  (packOk hl.laws hl.sender hl.receiver hl.types hl.notOwner _ t v t' w (tableOk_of_reach hr ha) hs hd).2.2

/-- **C17.** For values without arrays, aware datetimes, foreign objects and class-losing subclasses, and nested
within msgpack's limit, `loads(dumps(v))` succeeds and is `v`. -/
theorem C17_msgpack_exact {L E R h t} (hl : Link L E R) (hr : Reach E.idOf h t) (ha : Alive E h) {v}
    (hs : Sendable R v) (hp : Packable L E.tys v) (hx : Exact E.tys (fun p => received R p = .ok (.proxy p)) v)
    (hn : v.depth ≤ 512) (hf : E.server ≠ none ∨ ¬ Foreign E.tys v) :
    ∃ t' w, msgpackDumps E t v = (t', .ok w) ∧ msgpackLoads R w = .ok v := by
  obtain ⟨t', w, hd⟩ := (packT (hl.sender ▸ hl.laws) hl.types 512 t v (hl.sender ▸ hp) hn).1 hf
  obtain ⟨v', h1, h2⟩ := C17_msgpack_transport hl hr ha hs hd
  exact ⟨t', w, hd, by rw [h1, exact_arrives v v' hx h2]⟩

/-- The example: a nested message with a 70-bit integer, a tuple, bytes, a bytes key, a naive datetime, a numpy
scalar and a pickled object. -/
def exVal : Val :=
  .dict [(.str "a", .list [.int 7, .none, .tuple [.bool true, .str "x"]]),
    (.bytes [1, 2], .datetime ⟨2024, 2, 29, 23, 59, 58, 1, none, false⟩),
    (.str "n", .npScalar ⟨i4, .int (-3)⟩), (.str "shm", .obj 2 [.sharedMemory]),
    (.str "p", .proxy ⟨"tcp://c:9", 4, 5, "T", ["a", "b"]⟩)]

theorem exVal_sendable : Sendable recvB exVal := by
  simp only [exVal, Sendable, SendableD, SendableL, KeysOk]
  refine ⟨⟨by simp [keyOk], by simp [keyEq], by simp [lookupStr, encodeKey]⟩, ?_⟩
  refine ⟨by trivial, ⟨by decide, Or.inl (by decide)⟩, ⟨by trivial, by decide⟩, trivial, ⟨_, rfl⟩, trivial⟩

theorem exVal_packable : Packable lib sendA.tys exVal := by
  simp only [exVal, Packable, PackableD, PackableL]
  exact ⟨by simp [keyOk], by trivial, trivial, ⟨trivial, by decide⟩, fun _ => ⟨_, rfl⟩, trivial, trivial⟩

theorem exVal_exact : Exact sendA.tys (fun p => received recvB p = .ok (.proxy p)) exVal := by
  simp [exVal, Exact, ExactD, ExactL, received, recvB,
    show (Val.obj 2 [.sharedMemory]).isinstance sendA.tys = true from rfl]

example : ∃ t' w, msgpackDumps sendA Refs.init exVal = (t', .ok w) ∧ msgpackLoads recvB w = .ok exVal :=
  C17_msgpack_exact linkAB .init (alive _ _ rfl) exVal_sendable exVal_packable exVal_exact
    (by simp [exVal, Val.depth, depthD, depthL]) (Or.inl (by simp [sendA]))

/-- **C17** What becomes of the two kinds of numpy numbers that do not arrive as they were: a timedelta keeps its number and loses its unit, a long double is rounded to a float on
the way. -/
theorem C17_inexact_numbers {L E R h t} (hl : Link L E R) (hr : Reach E.idOf h t) (ha : Alive E h) {dt : DType} {t' w} :
    (∀ i, dt.kind = .timedelta → msgpackDumps E t (.npScalar ⟨dt, .int i⟩) = (t', .ok w) →
      msgpackLoads R w = .ok (.npScalar ⟨{ dt with name := "timedelta64" }, .int i⟩)) ∧
    ∀ n, dt.kind = .longdouble → msgpackDumps E t (.npScalar ⟨dt, .other n⟩) = (t', .ok w) →
      msgpackLoads R w = .ok (.npScalar ⟨dt, .other (L.ldOfFloat (L.ldToFloat n))⟩) := by
  obtain ⟨n, hdep⟩ : ∃ n, msgpackDepth = n + 1 := ⟨511, rfl⟩
  have hn := packOk hl.laws hl.sender hl.receiver hl.types hl.notOwner n
  have key : ∀ val x y, (dt.kind = .timedelta ∨ dt.kind = .longdouble) → NpScalar.toPy E.lib ⟨dt, val⟩ = .ok x → npMake R.lib dt x = .ok y →
      (∀ P v', Arrives E.tys P x v' → v' = x) → Sendable R x → msgpackDumps E t (.npScalar ⟨dt, val⟩) = (t', .ok w) → msgpackLoads R w = .ok y := by
    intro val x y hk hx hy hxa hxs hd
    have hi : (Val.npScalar ⟨dt, val⟩).isinstance E.tys = true := by
      have h1 : Ty.npNumber ∈ E.tys := hl.types _ (by simp [defaultTypes])
      simp only [Val.isinstance, List.any_eq_true, decide_eq_true_eq]
      refine ⟨_, ?_, h1⟩
      rcases hk with hk | hk <;> simp [Val.types, hk]
    have he : encodeValue E.lib (.npScalar ⟨dt, val⟩) = .ok [(.str encodeKey, .str "np_number"), (.str "dtype", .dtype dt), (.str "value", x)] := by
      rcases hk with hk | hk <;> simp only [encodeValue, Val.core, hk, hx]
    simp only [msgpackDumps, hdep, pack, encode, hi, if_true, he] at hd
    split at hd
    · rename_i t2 m hm
      cases hd
      obtain ⟨_, _, d', h3, h4⟩ := packMap_ok hn (tableOk_of_reach hr ha) (by simp [keyOk]) (by simp [keyEq, encodeKey]) (by simp [SendableD, Sendable, hxs]) hm
      simp only [ArrivesD, Arrives] at h4
      obtain ⟨_, _, rfl, rfl, _, _, rfl, rfl, x', _, rfl, hax, rfl⟩ := h4
      obtain rfl := hxa _ _ hax
      rw [msgpackLoads, h3]
      simp only [decode, lookupStr, removeStr, encodeKey, Val.text?, Val.core, need, String.reduceEq, if_true, if_false, hy]
    · cases hd
  refine ⟨fun i hk => key _ (.int i) _ (.inl hk) (by simp only [NpScalar.toPy, hk]) (by simp only [npMake, hk]) (by simp [Arrives]) (by simp [Sendable]), fun n hk => ?_⟩
  exact key _ (.float (L.ldToFloat n)) _ (.inr hk) (by simp only [NpScalar.toPy, hk, hl.sender]) (by simp only [npMake, hk, hl.receiver]) (by simp [Arrives]) (by simp [Sendable])
/-- Five milliseconds, and a number with more digits than a float. -/
example : ∃ w, (msgpackDumps sendA Refs.init (.npScalar ⟨m8, .int 5⟩)) = (Refs.init, .ok w) ∧
    msgpackLoads recvB w = .ok (.npScalar ⟨⟨"timedelta64", 8, .timedelta, true⟩, .int 5⟩) :=
  have ⟨w, hw⟩ : ∃ w, (msgpackDumps sendA Refs.init (.npScalar ⟨m8, .int 5⟩)) = (Refs.init, .ok w) := ⟨_, rfl⟩
  ⟨w, hw, (C17_inexact_numbers linkAB .init (alive _ _ rfl)).1 5 rfl hw⟩
example : ∃ w, (msgpackDumps sendA Refs.init (.npScalar ⟨g16, .other 5⟩)) = (Refs.init, .ok w) ∧
    msgpackLoads recvB w = .ok (.npScalar ⟨g16, .other (lib.ldOfFloat (lib.ldToFloat 5))⟩) :=
  have ⟨w, hw⟩ : ∃ w, (msgpackDumps sendA Refs.init (.npScalar ⟨g16, .other 5⟩)) = (Refs.init, .ok w) := ⟨_, rfl⟩
  ⟨w, hw, (C17_inexact_numbers linkAB .init (alive _ _ rfl)).2 5 rfl hw⟩

/-! ## C18 -/

/-- **C18.** What JSON `dumps` produces for a supported value, `loads` turns into what `JArrives` allows. -/
theorem C18_json_transport {L E R h t} (hl : Link L E R) (hr : Reach E.idOf h t) (ha : Alive E h) {v t' w}
    (hs : JSendable R v) (hd : jsonDumps E t v = (t', .ok w)) :
    ∃ v', jsonLoads R w = .ok v' ∧ JArrives L E.tys (ByProxy E R t') v v' := by
  have := (jpackOk hl.laws hl.sender hl.receiver hl.types hl.notOwner _ t v t' w (tableOk_of_reach hr ha) hs hd).2.2
  rwa [hl.sender] at this

/-- **C18.** For values with str keys and without arrays, aware datetimes, foreign objects and subclasses,
`loads(dumps(v))` succeeds and is `v` with tuples as lists and float64 scalars as floats. -/
theorem C18_json_exact {L E R h t} (hl : Link L E R) (hr : Reach E.idOf h t) (ha : Alive E h) {v}
    (hs : JSendable R v) (hp : JPackable L E.tys v) (hx : JExact E.tys (fun p => received R p = .ok (.proxy p)) v)
    (hn : v.jdepth ≤ 1000) (hf : E.server ≠ none ∨ ¬ JForeign E.tys v) :
    ∃ t' w, jsonDumps E t v = (t', .ok w) ∧ jsonLoads R w = .ok (jsonView v) := by
  obtain ⟨t', w, hd⟩ := (jpackT (hl.sender ▸ hl.laws) hl.types 1000 t v (hl.sender ▸ hp) hn).1 hf
  obtain ⟨v', h1, h2⟩ := C18_json_transport hl hr ha hs hd
  exact ⟨t', w, hd, by rw [h1, jexact_arrives v v' hx h2]⟩

/-- The example for JSON: as above with str keys, a bytes value, a float64 scalar and a big integer. -/
def exJVal : Val :=
  .dict [(.str "a", .list [.int (2 ^ 70), .none, .tuple [.bool true, .bytes [255, 0, 7]]]),
    (.str "t", .datetime ⟨2024, 2, 29, 23, 59, 58, 1, none, false⟩),
    (.str "n", .npScalar ⟨i4, .int (-3)⟩), (.str "f", .npScalar ⟨f8, .float 77⟩),
    (.str "g", .npScalar ⟨f4, .float 78⟩), (.str "shm", .obj 2 [.sharedMemory]),
    (.str "p", .proxy ⟨"tcp://c:9", 4, 5, "T", ["a", "b"]⟩)]

theorem exJVal_sendable : JSendable recvB exJVal := by
  simp only [exJVal, JSendable, JSendableD, JSendableL, JKeysOk]
  refine ⟨⟨by simp [jkey, Val.core], by simp [jkey, Val.core], by simp [jkey, Val.core, encodeKey]⟩, ?_⟩
  refine ⟨by trivial, ⟨by decide, Or.inl (by decide)⟩, ⟨by trivial, by decide⟩, ⟨by trivial, by decide⟩,
    ⟨by trivial, by decide⟩, trivial, ⟨_, rfl⟩, trivial⟩

theorem exJVal_packable : JPackable lib sendA.tys exJVal := by
  simp only [exJVal, JPackable, JPackableD, JPackableL]
  exact ⟨by simp [jkey, Val.core], by trivial, trivial, ⟨trivial, by decide⟩, ⟨trivial, by decide⟩,
    ⟨trivial, by decide⟩, fun _ => ⟨_, rfl⟩, trivial, trivial⟩

theorem exJVal_exact : JExact sendA.tys (fun p => received recvB p = .ok (.proxy p)) exJVal := by
  simp [exJVal, JExact, JExactD, JExactL, received, recvB,
    show (Val.obj 2 [.sharedMemory]).isinstance sendA.tys = true from rfl]

example : ∃ t' w, jsonDumps sendA Refs.init exJVal = (t', .ok w) ∧ jsonLoads recvB w = .ok (jsonView exJVal) :=
  C18_json_exact linkAB .init (alive _ _ rfl) exJVal_sendable exJVal_packable exJVal_exact
    (by simp [exJVal, Val.jdepth, jdepthD, jdepthL]) (Or.inl (by simp [sendA]))

example : jsonView exJVal = .dict [(.str "a", .list [.int (2 ^ 70), .none, .list [.bool true, .bytes [255, 0, 7]]]),
    (.str "t", .datetime ⟨2024, 2, 29, 23, 59, 58, 1, none, false⟩),
    (.str "n", .npScalar ⟨i4, .int (-3)⟩), (.str "f", .float 77),
    (.str "g", .npScalar ⟨f4, .float 78⟩), (.str "shm", .obj 2 [.sharedMemory]),
    (.str "p", .proxy ⟨"tcp://c:9", 4, 5, "T", ["a", "b"]⟩)] := rfl

/-- **C18** The same over JSON. -/
theorem C18_inexact_numbers {L E R h t} (hl : Link L E R) (hr : Reach E.idOf h t) (ha : Alive E h) {dt : DType} {t' w} :
    (∀ i, dt.kind = .timedelta → jsonDumps E t (.npScalar ⟨dt, .int i⟩) = (t', .ok w) →
      jsonLoads R w = .ok (.npScalar ⟨{ dt with name := "timedelta64" }, .int i⟩)) ∧
    ∀ n, dt.kind = .longdouble → jsonDumps E t (.npScalar ⟨dt, .other n⟩) = (t', .ok w) →
      jsonLoads R w = .ok (.npScalar ⟨dt, .other (L.ldOfFloat (L.ldToFloat n))⟩) := by
  obtain ⟨n, hdep⟩ : ∃ n, jsonDepth = n + 1 := ⟨999, rfl⟩
  have hn := jpackOk hl.laws hl.sender hl.receiver hl.types hl.notOwner n
  have key : ∀ val x y, (dt.kind = .timedelta ∨ dt.kind = .longdouble) → NpScalar.toPy E.lib ⟨dt, val⟩ = .ok x → npMake R.lib dt x = .ok y →
      (∀ P v', JArrives E.lib E.tys P x v' → v' = x) → JSendable R x → jsonDumps E t (.npScalar ⟨dt, val⟩) = (t', .ok w) → jsonLoads R w = .ok y := by
    intro val x y hk hx hy hxa hxs hd
    have hi : (Val.npScalar ⟨dt, val⟩).isinstance E.tys = true := by
      have h1 : Ty.npNumber ∈ E.tys := hl.types _ (by simp [defaultTypes])
      simp only [Val.isinstance, List.any_eq_true, decide_eq_true_eq]
      refine ⟨_, ?_, h1⟩
      rcases hk with hk | hk <;> simp [Val.types, hk]
    have he : encodeValue E.lib (.npScalar ⟨dt, val⟩) = .ok [(.str encodeKey, .str "np_number"), (.str "dtype", .dtype dt), (.str "value", x)] := by
      rcases hk with hk | hk <;> simp only [encodeValue, Val.core, hk, hx]
    have hd' : (match mapS (jpair E.lib (jpack E n)) t [(.str encodeKey, .str "np_number"), (.str "dtype", .dtype dt), (.str "value", x)] with
        | (t', .ok m) => (t', Except.ok (Wire.map m))
        | (t', .error e) => (t', .error e)) = (t', .ok w) := by
      rw [← hd]
      rcases hk with hk | hk <;> simp only [jsonDumps, hdep, jpack, Val.core, hk, jencode, encode, hi, if_true, he] <;> rfl
    split at hd'
    · rename_i t2 m hm
      cases hd'
      obtain ⟨_, _, d', h3, h4⟩ := jpackTag_ok hn (tableOk_of_reach hr ha) (by simp [keyEq, encodeKey]) (by simp) (by simp [JSendableD, JSendable, hxs]) hm
      simp only [JArrivesD, JArrives, jkey_str, Except.ok.injEq] at h4
      obtain ⟨_, _, _, rfl, rfl, rfl, _, _, _, rfl, rfl, rfl, _, _, _, rfl, rfl, hax, rfl⟩ := h4
      rw [hxa _ _ hax] at h3
      rw [jsonLoads, h3, jdecode_other (s := "np_number") (by simp [lookupStr]) (by simp) (by simp)]
      simp only [decode, lookupStr, removeStr, encodeKey, Val.text?, Val.core, need, String.reduceEq, if_true, if_false, hy]
    · cases hd'
  refine ⟨fun i hk => key _ (.int i) _ (.inl hk) (by simp only [NpScalar.toPy, hk]) (by simp only [npMake, hk]) (by simp [JArrives]) (by simp [JSendable]), fun n hk => ?_⟩
  exact key _ (.float (L.ldToFloat n)) _ (.inr hk) (by simp only [NpScalar.toPy, hk, hl.sender]) (by simp only [npMake, hk, hl.receiver]) (by simp [JArrives]) (by simp [JSendable])

example : ∃ w, (jsonDumps sendA Refs.init (.npScalar ⟨m8, .int 5⟩)) = (Refs.init, .ok w) ∧ jsonLoads recvB w = .ok (.npScalar ⟨{ m8 with name := "timedelta64" }, .int 5⟩) :=
  have ⟨w, hw⟩ : ∃ w, (jsonDumps sendA Refs.init (.npScalar ⟨m8, .int 5⟩)) = (Refs.init, .ok w) := ⟨_, rfl⟩
  ⟨w, hw, (C18_inexact_numbers linkAB .init (alive _ _ rfl)).1 5 rfl hw⟩

/-! ## C19 -/

/-- The value under the reserved key, when it says neither "pickle" nor "proxy" and is not itself a proxy or an
object. -/
def PlainMark (x : Val) : Prop :=
  (match x.core with | .proxy _ => False | .obj _ _ => False | _ => True) ∧
  x.text? ≠ some "pickle" ∧ x.text? ≠ some "proxy"

/-- **C19.** A dict with the reserved key never survives msgpack: what comes back, if anything, is not a dict with
that key. -/
theorem C19_msgpack_reserved_key {L E R h t} (hl : Link L E R) (hr : Reach E.idOf h t) (ha : Alive E h)
    {d : List (Val × Val)} {x t' w}
    (hk : ∀ e ∈ d, keyOk e.1 = true) (hp : d.Pairwise (fun a b => keyEq a.1 b.1 = false)) (hs : SendableD R d)
    (hx : lookupStr d "___type_name___" = some x) (hm : PlainMark x)
    (hd : msgpackDumps E t (.dict d) = (t', .ok w)) :
    (∀ d2, msgpackLoads R w = .ok (.dict d2) → lookupStr d2 "___type_name___" = none) ∧
    msgpackLoads R w ≠ .ok (.dict d) := by
  have key : ∀ d2, msgpackLoads R w = .ok (.dict d2) → lookupStr d2 "___type_name___" = none := by
    intro d2 h2
    obtain ⟨n, hn⟩ : ∃ n, msgpackDepth = n + 1 := ⟨511, rfl⟩
    rw [msgpackDumps, hn] at hd
    simp only [pack] at hd
    split at hd
    · rename_i t1 m hmap
      simp only [Prod.mk.injEq, Except.ok.injEq] at hd
      obtain ⟨rfl, rfl⟩ := hd
      obtain ⟨_, _, d', e1, e2⟩ := packMap_ok
        (packOk hl.laws hl.sender hl.receiver hl.types hl.notOwner _) (tableOk_of_reach hr ha) hk hp hs hmap
      obtain ⟨x', f1, f2⟩ := arrivesD_lookup _ d d' x e2 hx
      have ht := arrives_text hl.types x x' f2 hm.1
      unfold msgpackLoads at h2
      rw [e1] at h2
      exact decode_reserved (x := x') f1 (by rw [ht]; exact hm.2.1) (by rw [ht]; exact hm.2.2) h2
    · simp at hd
  refine ⟨key, ?_⟩
  intro h2
  have := key d h2
  rw [hx] at this; simp at this

/-- **C19.** A dict with the reserved key never survives JSON either. -/
theorem C19_json_reserved_key {L E R h t} (hl : Link L E R) (hr : Reach E.idOf h t) (ha : Alive E h)
    {d : List (Val × Val)} {x t' w}
    (hp : d.Pairwise (fun a b => jkey L a.1 ≠ jkey L b.1)) (hs : JSendableD R d)
    (hx : lookupStr d "___type_name___" = some x) (hm : PlainMark x)
    (hd : jsonDumps E t (.dict d) = (t', .ok w)) :
    (∀ d2, jsonLoads R w = .ok (.dict d2) → lookupStr d2 "___type_name___" = none) ∧
    jsonLoads R w ≠ .ok (.dict d) := by
  have key : ∀ d2, jsonLoads R w = .ok (.dict d2) → lookupStr d2 "___type_name___" = none := by
    intro d2 h2
    obtain ⟨n, hn⟩ : ∃ n, jsonDepth = n + 1 := ⟨999, rfl⟩
    rw [jsonDumps, hn] at hd
    simp only [jpack, Val.core] at hd
    split at hd
    · rename_i t1 m hmap
      simp only [Prod.mk.injEq, Except.ok.injEq] at hd
      obtain ⟨rfl, rfl⟩ := hd
      obtain ⟨_, _, d', e1, e2⟩ := jpackMap_ok
        (jpackOk hl.laws hl.sender hl.receiver hl.types hl.notOwner _) (tableOk_of_reach hr ha)
        (by rw [hl.sender]; exact hp) hs hmap
      rw [hl.sender] at e2
      obtain ⟨x', f1, f2⟩ := jarrivesD_lookup _ d d' x e2 hp hx
      have ht := jarrives_text hl.types x x' f2 hm.1
      unfold jsonLoads at h2
      rw [e1] at h2
      exact jdecode_reserved (x := x') f1 (by rw [ht]; exact hm.2.1) (by rw [ht]; exact hm.2.2) h2
    · simp at hd
  refine ⟨key, ?_⟩
  intro h2
  have := key d h2
  rw [hx] at this; simp at this

/-- A dict that says it is a tuple: it arrives as a tuple. -/
def exReserved : List (Val × Val) := [(.str "___type_name___", .str "tuple"), (.str "data", .list [.int 1])]
/-- A dict that says it is something unknown: the mark is dropped. -/
def exReserved2 : List (Val × Val) := [(.str "___type_name___", .int 5), (.str "data", .none)]

example : PlainMark (.str "tuple") := ⟨trivial, by decide, by decide⟩
example : PlainMark (.int 5) := ⟨trivial, by decide, by decide⟩
example : ∃ t' w, msgpackDumps sendA Refs.init (.dict exReserved) = (t', .ok w) ∧
    msgpackLoads recvB w = .ok (.tuple [.int 1]) := ⟨_, _, rfl, rfl⟩
example : ∃ t' w, jsonDumps sendA Refs.init (.dict exReserved2) = (t', .ok w) ∧
    jsonLoads recvB w = .ok (.dict [(.str "data", .none)]) := ⟨_, _, rfl, rfl⟩

/-! ## C20 -/

/-- **C20.** If a dict anywhere in the value has a key that is neither str nor bytes (nor a proxy or foreign
object), msgpack never returns a value: `dumps` or `loads` raises. -/
theorem C20_msgpack_other_keys {L E R h t} (hl : Link L E R) (hr : Reach E.idOf h t) (ha : Alive E h) {v t' w}
    (hb : BadKeyIn R v) (hd : msgpackDumps E t v = (t', .ok w)) : Fails (msgpackLoads R w) :=
  badKey_fails hl.laws hl.sender hl.receiver hl.types hl.notOwner _ t v t' w (tableOk_of_reach hr ha) hb hd

/-- **C20.** JSON gives str, int, bool, None and float keys a name; `dumps` raises if a dict anywhere in the value
has any other key (bytes, tuples, ...). -/
theorem C20_json_other_keys {E : SendEnv} {t v} (hb : JBadKeyIn E.lib v) : Fails (jsonDumps E t v).2 := by
  rw [fails_iff]
  intro w hw
  exact jbadKey_fails _ t v (jsonDumps E t v).1 w hb (by rw [← hw]; rfl)

/-- **C20.** The names JSON gives to keys. -/
theorem C20_json_key_names (L : Lib) (i : Int) (s : String) (f : Nat) :
    jkey L (.str s) = .ok s ∧ jkey L (.int i) = .ok (toString i) ∧ jkey L (.bool true) = .ok "true" ∧
    jkey L (.bool false) = .ok "false" ∧ jkey L .none = .ok "null" ∧ jkey L (.float f) = .ok (L.floatRepr f) :=
  ⟨rfl, rfl, rfl, rfl, rfl, rfl⟩

example : BadKeyIn recvB (.list [.tuple [.dict [(.str "a", .dict [(.int 1, .none)])]]]) := by
  simp only [BadKeyIn, BadKeyInL, BadKeyInD, BadKey, Sendable, Val.core]
  exact Or.inl (Or.inl (Or.inr (Or.inl (Or.inl ⟨trivial, trivial, trivial⟩))))
example : ∃ t' w, msgpackDumps sendA Refs.init (.dict [(.int 1, .none)]) = (t', .ok w) ∧
    msgpackLoads recvB w = .error .valueError := ⟨_, _, rfl, rfl⟩
example : JBadKeyIn lib (.list [.dict [(.bytes [1], .none)]]) := by
  simp only [JBadKeyIn, JBadKeyInL, JBadKeyInD, Val.core]; exact Or.inl (Or.inl trivial)

/-- **C68.** Keys JSON gives the same name collide: the receiver gets one entry with that name, holding what the
last of them held; no other entry is affected. -/
theorem C68_json_key_collisions {L E R h t} (hl : Link L E R) (hr : Reach E.idOf h t) (ha : Alive E h)
    {d : List (Val × Val)} {t' w} (hs : JSendableD R d) (hk : ∀ e ∈ d, jkey L e.1 ≠ .ok "___type_name___")
    (hd : jsonDumps E t (.dict d) = (t', .ok w)) :
    ∃ d' r, JArrivesD L E.tys (ByProxy E R t') d d' ∧ jsonLoads R w = .ok (.dict r) ∧
      ∀ name, lookupStr r name = lastStr d' name := by
  obtain ⟨n, hn⟩ : ∃ n, jsonDepth = n + 1 := ⟨999, rfl⟩
  rw [jsonDumps, hn] at hd
  simp only [jpack, Val.core] at hd
  split at hd
  · rename_i t1 m hmap
    simp only [Prod.mk.injEq, Except.ok.injEq] at hd
    obtain ⟨rfl, rfl⟩ := hd
    obtain ⟨_, _, d', e1, e2⟩ := jpackD_ok
      (jpackOk hl.laws hl.sender hl.receiver hl.types hl.notOwner _) d t t1 m (tableOk_of_reach hr ha) hs hmap
    rw [hl.sender] at e2
    have hks := jarrivesD_keys e2
    have hst : ∀ e ∈ d', ∃ s, e.1 = .str s := fun e he => by obtain ⟨s, h1, _⟩ := hks e he; exact ⟨s, h1⟩
    refine ⟨d', dictOf d', e2, ?_, fun name => lookupStr_dictOf hst name⟩
    rw [jsonLoads, junpack, e1]
    refine jdecode_plain ?_
    rw [lookupStr_dictOf hst]
    refine lastStr_none ?_
    intro e he hc
    obtain ⟨s, h1, e0, h2, h3⟩ := hks e he
    rw [h1] at hc
    simp only [Val.str.injEq] at hc
    subst hc
    exact hk e0 h2 h3
  · simp at hd

/-- Three keys, two of which collide. -/
def exCollide : List (Val × Val) := [(.int 1, .str "a"), (.none, .str "b"), (.str "1", .tuple [.str "c"])]
example : JSendableD recvB exCollide ∧ ∀ e ∈ exCollide, jkey lib e.1 ≠ .ok "___type_name___" := by
  refine ⟨by simp [exCollide, JSendableD, JSendable, JSendableL], ?_⟩
  intro e he
  simp only [exCollide, List.mem_cons, List.not_mem_nil, or_false] at he
  rcases he with rfl | rfl | rfl <;> decide
example : ∃ t' w, jsonDumps sendA Refs.init (.dict exCollide) = (t', .ok w) ∧
    jsonLoads recvB w = .ok (.dict [(.str "1", .list [.str "c"]), (.str "null", .str "b")]) := ⟨_, _, rfl, rfl⟩

/-! ## C21 -/

/-- **C21.** A message goes from A to B and B sends what it got back to A, while A still holds what it handed
out. Wherever A had sent an object by proxy, A finds that very object again. Proxies in the message are not
B's and A can handle them. -/
theorem C21_there_and_back {L EA RB EB RA hA tA hB tB addrA} {view : Obj → Val} {ga : GetAttr} {tA2 : Refs}
    (hl : Link L EA RB) (hrA : Reach EA.idOf hA tA) (haA : Alive EA hA)
    (hl2 : Link L EB RA) (hrB : Reach EB.idOf hB tB) (haB : Alive EB hB)
    (htys : ∀ ty ∈ EA.tys, ty ∈ EB.tys)
    (hown : EA.server = some addrA) (hra : RA.server = some (addrA, tA2.unwrap view ga))
    {v tA' w v' tB' w'}
    (hs : Sendable RB v)
    (hq : ProxiesIn (fun p => received RB p = .ok (.proxy p) ∧ ∃ x, received RA p = .ok x) v)
    (h1 : msgpackDumps EA tA v = (tA', .ok w)) (h2 : msgpackLoads RB w = .ok v')
    (h3 : msgpackDumps EB tB v' = (tB', .ok w'))
    (hkeep : ∀ oid o, tA'.lookup oid = .ok o → tA2.lookup oid = .ok o) :
    ∃ v'', msgpackLoads RA w' = .ok v'' ∧ Arrives EA.tys (BackHome EA RA view) v v'' := by
  obtain ⟨v1, e1, e2⟩ := C17_msgpack_transport hl hrA haA hs h1
  rw [h2] at e1
  simp only [Except.ok.injEq] at e1
  subst e1
  have home : ∀ p u, EA.server = some p.addr → tA'.lookup p.oid = .ok (EA.ident u) → p.attrs = [] →
      received RA p = .ok (view (EA.ident u)) := by
    intro p u hp hlk hat
    rw [hown] at hp
    simp only [Option.some.injEq] at hp
    simp only [received, hra, hp, if_true, Refs.unwrap, hkeep _ _ hlk, hat, getattrs]
  have hs' : Sendable RA v' := by
    refine sendable_arrived (Q := fun p => received RB p = .ok (.proxy p) ∧ ∃ x, received RA p = .ok x)
      (hl.receiver.trans hl2.receiver.symm) ?_ v v' hs hq e2
    intro u u' hu huq
    cases u <;> simp only [ByProxy] at hu
    case proxy p =>
      obtain ⟨q1, q2⟩ := huq p rfl
      rw [q1] at hu; simp only [Except.ok.injEq] at hu; subst hu
      simpa only [Sendable] using q2
    all_goals
      obtain ⟨p, rfl, g1, g2, g3, -⟩ := hu
      simp only [Sendable]
      exact ⟨_, home p _ g1 g2 g3⟩
  obtain ⟨v'', f1, f2⟩ := C17_msgpack_transport hl2 hrB haB hs' h3
  refine ⟨v'', f1, ?_⟩
  refine arrives_comp (R := RB) (Q := fun p => received RB p = .ok (.proxy p) ∧ ∃ x, received RA p = .ok x)
    hl2.types htys ?_ v v' v'' hs hq e2 f2
  intro u u' u'' hu huq hA
  cases u <;> simp only [ByProxy] at hu
  case proxy p =>
    obtain ⟨q1, q2⟩ := huq p rfl
    rw [q1] at hu; simp only [Except.ok.injEq] at hu; subst hu
    simp only [Arrives, ByProxy] at hA
    simpa only [BackHome] using hA
  all_goals
    obtain ⟨p, rfl, g1, g2, g3, -⟩ := hu
    simp only [Arrives, ByProxy] at hA
    rw [home p _ g1 g2 g3] at hA
    simp only [Except.ok.injEq] at hA
    simp only [BackHome]
    exact hA.symm

/-- **C21.** A proxy of A, with any attributes added, sent to A while its object is held (see C01), becomes the
value of that attribute chain on the object. -/
theorem C21_attribute_chain {L EB RA hB tB addrA} {view : Obj → Val} {ga : GetAttr} {tA : Refs} {o : Obj}
    (hl : Link L EB RA) (hrB : Reach EB.idOf hB tB) (haB : Alive EB hB)
    (hra : RA.server = some (addrA, tA.unwrap view ga)) (p : Proxy) (hp : p.addr = addrA)
    (hheld : tA.lookup p.oid = .ok o) (attrs : List String) {tB' w x}
    (hx : AttrChain ga (view o) attrs x)
    (hd : msgpackDumps EB tB (.proxy { p with attrs := attrs }) = (tB', .ok w)) :
    msgpackLoads RA w = .ok x := by
  have hrec : received RA { p with attrs := attrs } = .ok x := by
    simp only [received, hra, hp, if_true, Refs.unwrap, hheld, getattrs_ok_iff.2 hx]
  obtain ⟨v', h1, h2⟩ := C17_msgpack_transport hl hrB haB (v := .proxy { p with attrs := attrs })
    (by simp only [Sendable]; exact ⟨x, hrec⟩) hd
  simp only [Arrives, ByProxy] at h2
  rw [hrec] at h2
  rw [h1]; exact h2.symm ▸ rfl

/-- **C21.** The owner resolves a proxy it holds the object of exactly as Python resolves the attribute chain,
including the first exception. -/
theorem C21_owner_resolves {view : Obj → Val} {ga : GetAttr} {t : Refs} {o : Obj} (p : Proxy)
    (hheld : t.lookup p.oid = .ok o) :
    (∀ x, t.unwrap view ga p = .ok x ↔ AttrChain ga (view o) p.attrs x) ∧
    (∀ e, t.unwrap view ga p = .error e ↔ AttrRaises ga (view o) p.attrs e) := by
  simp only [Refs.unwrap, hheld]
  exact ⟨fun x => getattrs_ok_iff, fun e => getattrs_error_iff⟩

/-- The message of the example: a foreign object inside a tuple inside a dict. -/
def exForeign : Val := .dict [(.str "cb", .tuple [.int 1, .obj 5 [.user 1]])]

/-- A's table after sending the example. -/
def exForeignTable : Refs := ⟨1, 1, [(0, (5, [0]))], [(1005, 0)]⟩

/-- What B receives. -/
def exForeignAtB : Val :=
  .dict [(.str "cb", .tuple [.int 1, .proxy ⟨"tcp://a:1", 0, 0, "<class 'Thing'>", []⟩])]

/-- A as receiver after that. -/
def recvA : RecvEnv := ⟨lib, some ("tcp://a:1", exForeignTable.unwrap view ga)⟩

example : ∃ w, msgpackDumps sendA Refs.init exForeign = (exForeignTable, .ok w) ∧
    msgpackLoads recvB w = .ok exForeignAtB ∧
    ∃ t' w', msgpackDumps sendB Refs.init exForeignAtB = (t', .ok w') ∧ msgpackLoads recvA w' = .ok exForeign :=
  ⟨_, rfl, rfl, _, _, rfl, rfl⟩

example : AttrChain ga (view 5) ["x", "y"] (.int 42) := .cons rfl (.cons rfl (.nil _))
example : ∃ t' w, msgpackDumps sendB Refs.init (.proxy ⟨"tcp://a:1", 0, 0, "T", ["x", "y"]⟩) = (t', .ok w) ∧
    msgpackLoads recvA w = .ok (.int 42) := ⟨_, _, rfl, rfl⟩

/-! ## C23 -/

/-- **C23.** Every array, whatever its shape, strides and offset, is accepted by msgpack, and the receiver gets a
plain array with the same dtype, shape and elements. -/
theorem C23_msgpack_array {L E R h t} (hl : Link L E R) (hr : Reach E.idOf h t) (ha : Alive E h) (a : NdArray)
    (hd : a.dtype.sendable L) :
    ∃ t' w b, msgpackDumps E t (.ndarray a) = (t', .ok w) ∧ msgpackLoads R w = .ok (.ndarray b) ∧
      b.dtype = a.dtype ∧ b.shape = a.shape ∧ ∀ idx, InShape idx a.shape → b.elem idx = a.elem idx := by
  obtain ⟨t', w, h1⟩ := (packT (hl.sender ▸ hl.laws) hl.types 512 t (.ndarray a) (by simp [Packable])
    (by simp [Val.depth])).1 (Or.inr (by simp [Foreign]))
  obtain ⟨v', h2, h3⟩ := C17_msgpack_transport hl hr ha (v := .ndarray a) (by
    simp only [Sendable, hl.receiver]; exact hd) h1
  simp only [Arrives] at h3
  obtain ⟨b, rfl, h4, -⟩ := h3
  exact ⟨t', w, b, h1, h2, h4.1, h4.2.1, h4.2.2⟩

/-- **C23.** The same for JSON, for arrays whose dtype has a buffer and is not structured. -/
theorem C23_json_array {L E R h t} (hl : Link L E R) (hr : Reach E.idOf h t) (ha : Alive E h) (a : NdArray)
    (hd : a.dtype.sendable L) (hb : a.dtype.bufferable = true) (hn : startsWithC '[' a.dtype.name = false) :
    ∃ t' w b, jsonDumps E t (.ndarray a) = (t', .ok w) ∧ jsonLoads R w = .ok (.ndarray b) ∧
      b.dtype = a.dtype ∧ b.shape = a.shape ∧ ∀ idx, InShape idx a.shape → b.elem idx = a.elem idx := by
  obtain ⟨t', w, h1⟩ := (jpackT (hl.sender ▸ hl.laws) hl.types 1000 t (.ndarray a) (by simpa [JPackable] using hb)
    (by simp [Val.jdepth])).1 (Or.inr (by simp [JForeign]))
  obtain ⟨v', h2, h3⟩ := C18_json_transport hl hr ha (v := .ndarray a) (by
    simp only [JSendable, hl.receiver]; exact ⟨hd, hn⟩) h1
  simp only [JArrives] at h3
  obtain ⟨b, rfl, h4, -⟩ := h3
  exact ⟨t', w, b, h1, h2, h4.1, h4.2.1, h4.2.2⟩

/-- A transposed, reversed view: shape 3×2, strides (-4, 12), offset 8. -/
def exArray : NdArray := ⟨i4, [3, 2], [-4, 12], 8, (List.range 24).map UInt8.ofNat, some 9⟩

example : exArray.cContiguous = false ∧ exArray.elem [0, 1] = [20, 21, 22, 23] ∧ exArray.elem [2, 0] = [0, 1, 2, 3] := by decide
example : exArray.dtype.sendable lib := ⟨by decide, by decide, by decide, by decide⟩
example : ∃ t' w b, msgpackDumps sendA Refs.init (.ndarray exArray) = (t', .ok w) ∧
    msgpackLoads recvB w = .ok (.ndarray b) ∧ b.elem [0, 1] = [20, 21, 22, 23] := by
  obtain ⟨t', w, b, h1, h2, _, _, h5⟩ := C23_msgpack_array linkAB .init (alive _ _ rfl) exArray
    ⟨by decide, by decide, by decide, by decide⟩
  exact ⟨t', w, b, h1, h2, by rw [h5 [0, 1] (by simp [InShape, exArray])]; decide⟩

/-! ## C24 -/

/-- **C24.** Without a server in the thread, msgpack `dumps` of an otherwise serializable value raises `TypeError`
exactly when an object outside the serialize types occurs in it; otherwise it succeeds. -/
theorem C24_msgpack_refused {L E R} (hl : Link L E R) (hsrv : E.server = none) (t : Refs) {v}
    (hp : Packable L E.tys v) (hn : v.depth ≤ 512) :
    (Foreign E.tys v → msgpackDumps E t v = (t, .error .typeError)) ∧
    (¬ Foreign E.tys v → ∃ w, msgpackDumps E t v = (t, .ok w)) := by
  have := packT (hl.sender ▸ hl.laws) hl.types 512 t v (hl.sender ▸ hp) hn
  refine ⟨fun h => this.2 ⟨hsrv, h⟩, fun h => ?_⟩
  obtain ⟨t', w, hw⟩ := this.1 (Or.inr h)
  have ht : t' = t := by have := pack_noServer hsrv 512 t v; rw [hw] at this; exact this
  exact ⟨w, by rw [← ht]; rw [← ht] at hw; exact hw⟩

/-- **C24.** The same for JSON. -/
theorem C24_json_refused {L E R} (hl : Link L E R) (hsrv : E.server = none) (t : Refs) {v}
    (hp : JPackable L E.tys v) (hn : v.jdepth ≤ 1000) :
    (JForeign E.tys v → jsonDumps E t v = (t, .error .typeError)) ∧
    (¬ JForeign E.tys v → ∃ w, jsonDumps E t v = (t, .ok w)) := by
  have := jpackT (hl.sender ▸ hl.laws) hl.types 1000 t v (hl.sender ▸ hp) hn
  refine ⟨fun h => this.2 ⟨hsrv, h⟩, fun h => ?_⟩
  obtain ⟨t', w, hw⟩ := this.1 (Or.inr h)
  have ht : t' = t := by have := jpack_noServer hsrv 1000 t v; rw [hw] at this; exact this
  exact ⟨w, by rw [← ht]; rw [← ht] at hw; exact hw⟩

example : Foreign sendNone.tys exForeign ∧ Packable lib sendNone.tys exForeign := by
  simp only [exForeign, Foreign, ForeignD, ForeignL, Packable, PackableD, PackableL]
  exact ⟨Or.inl (Or.inr (Or.inl rfl)), by simp [keyOk], ⟨trivial, fun h => absurd h (by decide), trivial⟩, trivial⟩
example : msgpackDumps sendNone Refs.init exForeign = (Refs.init, .error .typeError) := rfl
example : jsonDumps sendNone Refs.init exForeign = (Refs.init, .error .typeError) := rfl
example : ¬ Foreign sendNone.tys exVal := by
  simp only [exVal, Foreign, ForeignD, ForeignL]; decide

open Ex

/-! ## The theorems on these cases -/

theorem exVal_dumped : ∃ t' w, msgpackDumps sendA Refs.init exVal = (t', .ok w) := ⟨_, _, rfl⟩
example := C17_msgpack_transport linkAB .init (alive _ _ rfl) exVal_sendable exVal_dumped.choose_spec.choose_spec
theorem exJVal_dumped : ∃ t' w, jsonDumps sendA Refs.init exJVal = (t', .ok w) := ⟨_, _, rfl⟩
example := C18_json_transport linkAB .init (alive _ _ rfl) exJVal_sendable exJVal_dumped.choose_spec.choose_spec
theorem exReserved_dumped : ∃ t' w, msgpackDumps sendA Refs.init (.dict exReserved) = (t', .ok w) := ⟨_, _, rfl⟩
example := C19_msgpack_reserved_key linkAB .init (alive _ _ rfl) (d := exReserved) (x := .str "tuple") (by simp [exReserved, keyOk])
  (by simp [exReserved, keyEq]) (by simp [exReserved, SendableD, Sendable, SendableL]) rfl ⟨trivial, by decide, by decide⟩ exReserved_dumped.choose_spec.choose_spec
theorem exReserved2_dumped : ∃ t' w, jsonDumps sendA Refs.init (.dict exReserved2) = (t', .ok w) := ⟨_, _, rfl⟩
example := C19_json_reserved_key linkAB .init (alive _ _ rfl) (d := exReserved2) (x := .int 5)
  (by simp [exReserved2, jkey, Val.core]) (by simp [exReserved2, JSendableD, JSendable]) rfl ⟨trivial, by decide, by decide⟩ exReserved2_dumped.choose_spec.choose_spec
/-- A dict in a dict in a tuple in a list has the key 1. -/
def exBadKey : Val := .list [.tuple [.dict [(.str "a", .dict [(.int 1, .none)])]]]
theorem exBadKey_dumped : ∃ t' w, msgpackDumps sendA Refs.init exBadKey = (t', .ok w) := ⟨_, _, rfl⟩
example : ∃ w, Fails (msgpackLoads recvB w) := ⟨_, C20_msgpack_other_keys linkAB .init (alive _ _ rfl) (v := exBadKey)
  (by
    simp only [exBadKey, BadKeyIn, BadKeyInL, BadKeyInD, BadKey, Sendable, Val.core]
    exact Or.inl (Or.inl (Or.inr (Or.inl (Or.inl ⟨trivial, trivial, trivial⟩))))) exBadKey_dumped.choose_spec.choose_spec⟩
example : Fails (jsonDumps sendA Refs.init (.list [.dict [(.bytes [1], .none)]])).2 := C20_json_other_keys (by
  simp only [JBadKeyIn, JBadKeyInL, JBadKeyInD, Val.core]; exact Or.inl (Or.inl trivial))
theorem exCollide_dumped : ∃ t' w, jsonDumps sendA Refs.init (.dict exCollide) = (t', .ok w) := ⟨_, _, rfl⟩
example := C68_json_key_collisions linkAB .init (alive _ _ rfl) (d := exCollide) (by simp [exCollide, JSendableD, JSendable, JSendableL])
  (by
    intro e he
    simp only [exCollide, List.mem_cons, List.not_mem_nil, or_false] at he
    rcases he with rfl | rfl | rfl <;> decide) exCollide_dumped.choose_spec.choose_spec

theorem linkBA : Link lib sendB recvA := ⟨laws, rfl, rfl, fun _ h => h, fun a u h => by
  simp only [recvA, Option.some.injEq, Prod.mk.injEq] at h
  rw [← h.1]; decide⟩
theorem exForeign_dumped : ∃ w, msgpackDumps sendA Refs.init exForeign = (exForeignTable, .ok w) ∧ msgpackLoads recvB w = .ok exForeignAtB := ⟨_, rfl, rfl⟩
theorem exForeignAtB_dumped : ∃ t' w', msgpackDumps sendB Refs.init exForeignAtB = (t', .ok w') := ⟨_, _, rfl⟩
theorem exForeign_sendable (R) : Sendable R exForeign := by
  simp only [exForeign, Sendable, SendableD, SendableL, KeysOk]
  exact ⟨⟨by simp [keyOk], by simp, by simp [lookupStr, encodeKey]⟩, by trivial⟩
/-- A's object goes to B and back. -/
example := C21_there_and_back (view := view) (ga := ga) (tA2 := exForeignTable) linkAB .init (alive _ _ rfl) linkBA .init (alive _ _ rfl) (fun _ h => h) rfl rfl (exForeign_sendable _)
  (by simp [exForeign, ProxiesIn, ProxiesInD, ProxiesInL]) exForeign_dumped.choose_spec.1 exForeign_dumped.choose_spec.2
  exForeignAtB_dumped.choose_spec.choose_spec (fun _ _ h => h)
theorem exChain_dumped : ∃ t' w, msgpackDumps sendB Refs.init (.proxy ⟨"tcp://a:1", 0, 0, "T", ["x", "y"]⟩) = (t', .ok w) := ⟨_, _, rfl⟩
example : ∃ w, msgpackLoads recvA w = .ok (.int 42) :=
  ⟨_, C21_attribute_chain (o := 5) linkBA .init (alive _ _ rfl) rfl ⟨"tcp://a:1", 0, 0, "T", []⟩ rfl rfl ["x", "y"] (.cons rfl (.cons rfl (.nil _)))
    exChain_dumped.choose_spec.choose_spec⟩
example := (C21_owner_resolves (view := view) (ga := ga) (t := exForeignTable) (o := 5) ⟨"tcp://a:1", 0, 0, "T", ["x", "y"]⟩ rfl).1 (.int 42)
example := C23_json_array linkAB .init (alive _ _ rfl) exArray ⟨by decide, by decide, by decide, by decide⟩ (by decide) (by decide)
example : msgpackDumps sendNone Refs.init exForeign = (Refs.init, .error .typeError) :=
  (C24_msgpack_refused linkNone rfl Refs.init (v := exForeign)
    (by
      simp only [exForeign, Packable, PackableD, PackableL]
      exact ⟨by simp [keyOk], ⟨trivial, fun h => absurd h (by decide), trivial⟩, trivial⟩)
    (by simp [exForeign, Val.depth, depthD, depthL])).1 (by
      simp only [exForeign, Foreign, ForeignD, ForeignL]
      exact Or.inl (Or.inr (Or.inl rfl)))
example : ∃ w, msgpackDumps sendNone Refs.init exVal = (Refs.init, .ok w) :=
  (C24_msgpack_refused linkNone rfl Refs.init exVal_packable (by simp [exVal, Val.depth, depthD, depthL])).2
    (by simp only [exVal, Foreign, ForeignD, ForeignL]; decide)
example : ∃ w, jsonDumps sendNone Refs.init exJVal = (Refs.init, .ok w) :=
  (C24_json_refused linkNone rfl Refs.init exJVal_packable (by simp [exJVal, Val.jdepth, jdepthD, jdepthL])).2
    (by simp only [exJVal, JForeign, JForeignD, JForeignL]; decide)

end Verif
