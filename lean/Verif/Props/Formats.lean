import Verif.Proof.FormatsMore
import Verif.Props.EndToEnd
/-!
# C104: the bytes of messages

What one side writes as bytes the other side reads, for the formats written out in `Verif.Model.Formats`.
-/
namespace Verif

/-- **C104** Both formats: the bytes of a tree the format can carry are read back as this tree. -/
theorem C104_read_back {F : FmtLib} (hF : F.Laws) {ser : Ser} {w : Wire} (h : ser.Writable w) : parseBytes F ser ((bytesCodec F).tree ser w) = .ok w := by
  cases ser with
  | msgpack => exact mpLoad_write F h
  | json => exact jsLoad_write hF h

/-- **C104** What a serializer makes of a value is a tree its format can carry, if it is within the sizes of the format: no kind of item is missing in the format, and what
can be written is not nested too deeply to be read. -/
theorem C104_dumps_writable {ser : Ser} {E : SendEnv} {t : Refs} {v : Val} {w : Wire} (h : (ser.dumps E t v).2 = .ok w) (hs : w.all ser.smallItem = true) : ser.Writable w :=
  dumps_writable h hs

/-- **C104** The number of a request, any integer, is read back from its bytes, and so is any text. -/
theorem C104_number_text (i : Int) (s : String) : bytesInt (numBytes i) = some i ∧ utf8Text (utf8Bytes s) = some s := ⟨bytesInt_num i, utf8Text_bytes s⟩

/-- **C104** So a process reading messages with these libraries reads what clients write: the assumption `Fits` of C34–C37, C88, C92 and C93 holds. -/
theorem C104_fits {F : FmtLib} (hF : F.Laws) (H : Heap) : Fits (bytesCodec F) (H.withBytes F) where
  num := bytesInt_num
  text := utf8Text_bytes
  tree ser w h := by
    have := C104_read_back hF h
    refine ⟨fun e => ?_, this⟩
    rw [e] at this
    cases ser with
    | msgpack => simp [parseBytes, mpLoad, mpRead, mpStack, mpItem] at this
    | json =>
      have hu : utf8Text [] = some "" := utf8Text_bytes ""
      simp [parseBytes, jsLoad, hu, jsWs, jsRead, jsonDepth, jsItem] at this

/-- **C104** A value sent by one process as bytes arrives in the other as C17 and C18 say, if it is within the sizes of the format. -/
theorem C104_transport {F : FmtLib} (hF : F.Laws) {L E R h t} (hl : Link L E R) (hr : Reach E.idOf h t) (ha : Alive E h) {ser : Ser} {v t' w}
    (hs : ser.Sendable R v) (hd : ser.dumps E t v = (t', .ok w)) (hsmall : w.all ser.smallItem = true) :
    ∃ v', (parseBytes F ser ((bytesCodec F).tree ser w)).bind (ser.loads R) = .ok v' ∧ ser.Arrives L E.tys (ByProxy E R t') v v' := by
  obtain ⟨v', h1, h2⟩ := ser_transport hl hr ha hs hd
  refine ⟨v', ?_, h2⟩
  rw [C104_read_back hF (dumps_writable (by rw [hd]) hsmall)]
  exact h1

/-- **C104** Different trees have different bytes. -/
theorem C104_injective {F : FmtLib} (hF : F.Laws) {ser : Ser} {w w' : Wire} (h : ser.Writable w) (h' : ser.Writable w')
    (e : (bytesCodec F).tree ser w = (bytesCodec F).tree ser w') : w = w' := by
  have h1 := C104_read_back hF h
  rw [e, C104_read_back hF h'] at h1
  exact (Except.ok.inj h1).symm

/-- **C104** A msgpack message that is cut short anywhere is refused with `ValueError`, and one with anything after it with `ExtraData`: no message is taken for another one. -/
theorem C104_incomplete (F : FmtLib) {w : Wire} (h : Ser.Writable .msgpack w) {p x : Bytes} (hx : x ≠ []) :
    (p ++ x = (bytesCodec F).tree .msgpack w → parseBytes F .msgpack p = .error .valueError) ∧
    parseBytes F .msgpack ((bytesCodec F).tree .msgpack w ++ x) = .error (.other "ExtraData") :=
  ⟨(mpLoad_cut F h hx).1, (mpLoad_cut F (p := mpWrite w) h hx).2 rfl⟩

/-- **C104** The bytes of JSON are printable ASCII characters, whatever the texts in it. -/
theorem C104_ascii {F : FmtLib} (hF : F.Laws) {w : Wire} (h : Ser.Writable .json w) :
    ∃ s : String, (bytesCodec F).tree .json w = utf8Bytes s ∧ ∀ c ∈ s.toList, 0x20 ≤ c.toNat ∧ c.toNat ≤ 0x7e := by
  refine ⟨_, rfl, ?_⟩
  rw [String.toList_ofList]
  exact ascii_write hF w (by unfold jsFine; rw [all_and, h.1, h.2.1]; rfl)

namespace Ex

/-! ## The hypotheses can be met -/

/-- Floats written as their bits with an exponent. -/
def fmt : FmtLib where
  f32 n := n
  floatText f := Nat.toDigits 10 f ++ ['e', '+', '0']
  floatOf s := Nat.ofDigitChars 10 (s.takeWhile isDig) 0

theorem fmt_laws : fmt.Laws where
  form f _ _ := by
    refine ⟨[], Nat.toDigits 10 f, [], ['e', '+', '0'], by simp [fmt], .inl rfl, ?_, .inl rfl, .inr ⟨'+', ['0'], rfl, .inl rfl, by simp, ?_⟩, .inr (by simp)⟩
    · by_cases h : f = 0
      · subst h; exact .inl (by decide)
      · obtain ⟨c, d, h1, h2⟩ := toDigits_head (Nat.pos_of_ne_zero h)
        have hd : ∀ x ∈ c :: d, 48 ≤ x.toNat ∧ x.toNat ≤ 57 := by
          intro x hx
          rw [← h1] at hx
          have := isDig_toDigits hx
          simpa [isDig] using this
        exact .inr ⟨c, d, h1, h2, hd c List.mem_cons_self, fun x hx => hd x (List.mem_cons_of_mem _ hx)⟩
    · decide
  exact f _ _ := by
    have := (span_digits (d := Nat.toDigits 10 f) (r := ['e', '+', '0']) (fun c hc => isDig_toDigits hc) (by decide)).1
    show Nat.ofDigitChars 10 ((Nat.toDigits 10 f ++ ['e', '+', '0']).takeWhile isDig) 0 = f
    rw [this]
    exact Nat.ofDigitChars_ten_toDigits

/-- A tree with all kinds of items both formats have. -/
def tree1 : Wire := .map [(.str "a\n\"é😀", .arr [.int (-129), .int 70000, .float 0x3ff8000000000000, .nil, .bool true, .arr []]), (.str "", .map [])]

/-- C104: both formats can carry it; msgpack also bytes and other keys. -/
example : Ser.Writable .msgpack tree1 ∧ Ser.Writable .json tree1 := by
  unfold Ser.Writable Ser.Small
  decide +kernel
example : Ser.Writable .msgpack (.map [(.int 3, .bin [0, 255])]) ∧ ¬ Ser.Writable .json (.map [(.int 3, .nil)]) ∧ ¬ Ser.Writable .json (.bin []) := by
  unfold Ser.Writable Ser.Small
  decide +kernel

/-- C104: the bytes of a msgpack and of a JSON message. -/
example : (bytesCodec fmt).tree .msgpack (.arr [.int (-33), .int 128, .str "é", .bin [7]]) = [0x94, 0xd0, 0xdf, 0xcc, 0x80, 0xa2, 0xc3, 0xa9, 0xc4, 1, 7] := by decide +kernel
example : (String.ofList (jsWrite fmt (.map [(.str "a", .arr [.int (-33), .nil]), (.str "😀", .bool false)]))) = "{\"a\": [-33, null], \"\\ud83d\\ude00\": false}" := by decide +kernel

/-- C104: sizes matter. An integer of more than 64 bits, a map with integer keys: msgpack has bytes for the second only. -/
example : parseBytes fmt .msgpack ((bytesCodec fmt).tree .msgpack (.map [(.int 3, .nil)])) = .ok (.map [(.int 3, .nil)]) := by rfl

/-- C104: JSON has one NaN only: another one is read as that. -/
example : parseBytes fmt .json ((bytesCodec fmt).tree .json (.float 0x7ff8000000000001)) = .ok (.float 0x7ff8000000000000) := by
  have : utf8Text (utf8Bytes (String.ofList "NaN".toList)) = some "NaN" := utf8Text_bytes _
  rfl

/-- The server's process, reading bytes. -/
def heapB : Heap := heap2.withBytes fmt

theorem liveHeapB (t : Refs) : LiveHeap heapB t where
  sent u u' h := Nat.add_right_cancel h
  held _ _ _ _ u h := Nat.add_right_cancel h

theorem liveRunB : ∀ (es : List Ev) (s : Srv), (∀ e ∈ es, e.heap = heapB) → LiveRun heapB.idOf s es
  | [], _, _ => trivial
  | e :: es, s, h => by
    refine ⟨by rw [h e List.mem_cons_self], by rw [h e List.mem_cons_self]; exact liveHeapB _, ?_⟩
    exact liveRunB es _ fun e he => h e (List.mem_cons_of_mem _ he)

/-- A uses msgpack, B JSON. -/
def sersB (n : Bytes) : Ser := if n = [65] then .msgpack else .json
def reqB (n : Bytes) (r : Request) (rt sync : String) : SEv := .request n csend Refs.init r.1 r.2 rt sync

/-- As `evs`, with real bytes. -/
def evsB : List SEv :=
  [reqB [65] (callObjReq (.int 5) (.list [.int 1]) (.dict [])) "auto" "async", .serve [65] heapB,
   reqB [66] (setItemReq (.str "x") (.list [.int 7])) "auto" "off", reqB [66] (getItemReq (.str "x")) "auto" "sync",
   .serve [66] heapB, .serve [66] heapB, rd [66],
   .ret heapB (.error .attributeError), rd [65]]

/-- C104: with real bytes, the circumstances of C34–C37, C88, C92 and C93 can be met. -/
theorem world_evsB : World (bytesCodec fmt) lib heapB.idOf srv sersB evsB where
  laws := laws
  types := fun ty h => h
  fits e he H hH := by
    have : H = heapB := by
      revert e H
      simp [evsB, reqB, rd, SEv.heap?]
    rw [this]; exact C104_fits fmt_laws heap2
  lib e he H hH := by
    have : H = heapB := by
      revert e H
      simp [evsB, reqB, rd, SEv.heap?]
    rw [this]; rfl
  read n P junk h := by
    have : P = cenv := by
      simp only [evsB, reqB, rd, List.mem_cons, List.not_mem_nil, reduceCtorEq, false_or, or_false, SEv.deliver.injEq] at h
      rcases h with h | h <;> exact h.2.1
    rw [this]; exact ⟨rfl, by simp [cenv]⟩
  live := by
    apply liveRunB
    intro e he
    obtain ⟨se, h3, h4⟩ := srvHist_heap he
    revert se
    generalize e.heap = H
    simp [evsB, reqB, rd, SEv.heap?]
    exact Eq.symm
  small n E t a o rt sy w he hd := by
    have h3 : evsB.all (fun e => match e with
      | .request n E t _ (some o) _ _ => (match ((sersB n).dumps E t o).2 with
        | .ok w => w.all (sersB n).smallItem
        | .error _ => true)
      | _ => true) = true := by decide +kernel
    have := List.all_eq_true.1 h3 _ he
    simp only [hd] at this
    exact this

/-- C104: and the futures hold the exception and the value. -/
example : (match (((Sys.init srv sersB).run (bytesCodec fmt) evsB).cli [65]).fut 0, (((Sys.init srv sersB).run (bytesCodec fmt) evsB).cli [66]).fut 0 with
    | some (.remote (.str "AttributeError") (.list [.str "Error while processing request A [0]: ", .str "Stack", .str " < exception caught here >\n", .str "Traceback"])), some (.value (.list [.int 7])) => true
    | _, _ => false) = true := by decide +kernel

end Ex

namespace Ex

/-! ## The theorems on these cases -/

theorem tree1_writable : Ser.Writable .msgpack tree1 ∧ Ser.Writable .json tree1 := by
  unfold Ser.Writable Ser.Small
  decide +kernel
example := C104_read_back fmt_laws tree1_writable.1
example := C104_read_back fmt_laws tree1_writable.2
example := C104_injective fmt_laws tree1_writable.2 tree1_writable.2 rfl
example := C104_incomplete fmt tree1_writable.1 (p := [0x82]) (x := [1, 2]) nofun
example := C104_ascii fmt_laws tree1_writable.2
example := C104_fits fmt_laws heap2

/-- `exVal` with all its kinds of items. -/
example : ∃ t' w, Ser.dumps .msgpack sendA Refs.init exVal = (t', .ok w) ∧ Ser.Writable .msgpack w ∧
    ∃ v', (parseBytes fmt .msgpack ((bytesCodec fmt).tree .msgpack w)).bind (Ser.loads .msgpack recvB) = .ok v' := by
  have h : (match Ser.dumps .msgpack sendA Refs.init exVal with | (_, .ok w) => w.all (Ser.smallItem .msgpack) | _ => false) = true := by decide +kernel
  split at h
  · next t' w hd =>
    obtain ⟨v', hv, -⟩ := C104_transport fmt_laws linkAB .init (alive _ _ rfl) (ser := .msgpack) (v := exVal) exVal_sendable hd h
    exact ⟨t', w, hd, C104_dumps_writable (ser := .msgpack) (E := sendA) (t := Refs.init) (v := exVal) (by rw [hd]) h, v', hv⟩
  · cases h

end Ex

end Verif
