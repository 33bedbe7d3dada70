import Verif.Proof.JsonErrors
import Verif.Proof.MsgpackShort
/-!
# C112: messages of any implementation of the formats are read as what they say

Not only what the package's own clients write is read back (C104): a server accepts exactly the bytes that the specifications of JSON and msgpack
(`Verif.Spec.JsonText`, `Verif.Spec.MsgpackBytes`) give a meaning, and takes them to mean that.
-/
namespace Verif

theorem utf8Text_iff (b : Bytes) (s : String) : utf8Text b = some s ↔ b = s.toUTF8.data.toList := utf8Text_ok

/-- C112: `JsonSerializer.loads` accepts exactly the UTF-8 of JSON texts, and reads what they stand for: white space, escapes, the form of numbers make no difference. -/
theorem C112_json (F : FmtLib) (b : Bytes) (w : Wire) :
    parseBytes F .json b = .ok w ↔ ∃ s : String, b = s.toUTF8.data.toList ∧ JsonText F.floatOf s.toList w := by
  simp only [← utf8Text_iff]
  exact jsLoad_iff F b w

/-- C112: `MsgpackSerializer.loads` accepts exactly the bytes of the table of formats: integers and lengths may be written in more bytes than needed. -/
theorem C112_msgpack (F : FmtLib) (b : Bytes) (w : Wire) : parseBytes F .msgpack b = .ok w ↔ MpBytes F.f32 1024 b w := mpLoad_iff F b w

/-- C112: a text or bytes mean one thing only, and no message of msgpack is the beginning of another. -/
theorem C112_unique (fl f32 : _ → Nat) :
    (∀ s w w', JsonText fl s w → JsonText fl s w' → w = w') ∧
      ∀ t t' r r' w w', MpBytes f32 1024 t w → MpBytes f32 1024 t' w' → t ++ r = t' ++ r' → t = t' ∧ w = w' := by
  constructor
  · intro s w w' h h'
    have g : ∀ v, JsonText fl s v → jsLoad ⟨f32, fun _ => [], fl⟩ (String.ofList s).toUTF8.data.toList = .ok v := by
      intro v hv
      exact (jsLoad_iff ⟨f32, fun _ => [], fl⟩ _ _).2 ⟨String.ofList s, utf8Text_ok.2 rfl, by simpa using hv⟩
    have := (g w h).symm.trans (g w' h')
    simpa using this
  · intro t t' r r' w w' h h' e
    have g1 := (mpRead_iff ⟨f32, fun _ => [], fl⟩ 1024 (t ++ r) w r).2 ⟨t, rfl, h⟩
    have g2 := (mpRead_iff ⟨f32, fun _ => [], fl⟩ 1024 (t ++ r) w' r').2 ⟨t', e, h'⟩
    have := g1.symm.trans g2
    simp only [Except.ok.injEq, Prod.mk.injEq] at this
    obtain ⟨rfl, rfl⟩ := this
    exact ⟨List.append_cancel_right e, rfl⟩

/-- C112: the package's own writers follow the specifications, so that other implementations can read what they write. -/
theorem C112_writes (F : FmtLib) (w : Wire) :
    (Ser.Writable .msgpack w → MpBytes F.f32 1024 (mpWrite w) w) ∧ (F.Laws → Ser.Writable .json w → JsonText F.floatOf (jsWrite F w) w) := by
  constructor
  · intro h
    exact (mpLoad_iff F _ _).1 (mpLoad_write F h)
  · intro hF h
    obtain ⟨s, h1, h2⟩ := (jsLoad_iff F _ _).1 (jsLoad_write hF h)
    rw [utf8Text_bytes] at h1
    cases h1
    simpa using h2

/-- C112: with msgpack, no other bytes that say the same are fewer (floats aside). -/
theorem C112_short (f32 : Nat → Nat) (d : Nat) (b : Bytes) (w : Wire) (h : MpBytes f32 d b w) (hw : w.noFloat = true) : (mpWrite w).length ≤ b.length := mpWrite_short d b w h hw

/-- C112: how JSON is refused. Bytes that are no UTF-8: `UnicodeDecodeError`. More than 4300 digits in a row: possibly `ValueError`. More than 1000 opening brackets:
possibly `RecursionError`. In all other cases `JSONDecodeError`. -/
theorem C112_refused_json (F : FmtLib) (b : Bytes) (e : Exc) (h : parseBytes F .json b = .error e) :
    ((∀ s : String, b ≠ s.toUTF8.data.toList) ∧ e = .unicodeError) ∨
    ∃ s : String, b = s.toUTF8.data.toList ∧
      (e = .other "JSONDecodeError" ∨
        (e = .valueError ∧ ∃ x d y, s.toList = x ++ (d ++ y) ∧ 4300 < d.length ∧ ∀ c ∈ d, JsDigit c) ∨
        (e = .other "RecursionError" ∧ 1000 < s.toList.countP fun c => c = '[' || c = '{')) := by
  rcases jsLoad_errs F b e h with ⟨h1, h2⟩ | ⟨s, h1, h2⟩
  · refine .inl ⟨?_, h2⟩
    intro s hs
    rw [utf8Text_ok.2 hs] at h1
    cases h1
  · exact .inr ⟨s, utf8Text_ok.1 h1, h2⟩

/-- C112: how msgpack is refused. Something after the message, and only that, is `ExtraData`. -/
theorem C112_refused_msgpack (F : FmtLib) (b : Bytes) :
    (∀ e, parseBytes F .msgpack b = .error e → e = .valueError ∨ e = .unicodeError ∨ e = .other "FormatError" ∨ e = .other "StackError" ∨ e = .other "ExtraData") ∧
      (parseBytes F .msgpack b = .error (.other "ExtraData") ↔ ∃ t r w, b = t ++ r ∧ r ≠ [] ∧ MpBytes F.f32 1024 t w) := by
  refine ⟨?_, mpLoad_extra F b⟩
  intro e h
  replace h : mpLoad F b = .error e := h
  unfold mpLoad at h
  split at h
  · cases h
  · cases h; exact .inr (.inr (.inr (.inr rfl)))
  · next he =>
    cases h
    rcases mpRead_errs F _ _ _ he with h | h | h | h
    · exact .inl h
    · exact .inr (.inl h)
    · exact .inr (.inr (.inl h))
    · exact .inr (.inr (.inr (.inl h)))

/-- C112: messages that would be fine but for how deeply they are nested: read down to 1000 levels (JSON) or 1024 (msgpack), and refused beyond these. -/
theorem C112_deep (F : FmtLib) (n : Nat) (w : Wire) :
    (∀ a t b : List Char, JsBlank a → JsBlank b → JsValue F.floatOf n t w →
      parseBytes F .json (String.ofList (a ++ (t ++ b))).toUTF8.data.toList = if w.nesting ≤ 1000 then .ok w else .error (.other "RecursionError")) ∧
    (∀ t, MpBytes F.f32 n t w → parseBytes F .msgpack t = if w.nesting ≤ 1024 then .ok w else .error (.other "StackError")) := by
  constructor
  · intro a t b ha hb ht
    obtain ⟨h1, h2⟩ := jsDeep F n 1000 t w ht
    split
    · next hn =>
      exact (C112_json F _ w).2 ⟨_, rfl, a, t, b, ha, hb, h1 hn, by simp⟩
    · next hn =>
      have hs : jsWs (a ++ (t ++ b)) = t ++ b := jsWs_starts ha ((jsRead_reads F n).starts t w ht) b
      have hstop := jsBlank_stop hb jsStop_nil
      rw [List.append_nil] at hstop
      have hr := h2 (by omega) b hstop
      have hu : utf8Text (String.ofList (a ++ (t ++ b))).toUTF8.data.toList = some (String.ofList (a ++ (t ++ b))) := utf8Text_ok.2 rfl
      have hbom : ¬ (a ++ (t ++ b)).head? = some (Char.ofNat 0xfeff) := by
        intro hh
        cases a with
        | cons x a =>
          have := ha x (by simp)
          simp only [List.cons_append, List.head?_cons, Option.some.injEq] at hh
          rw [hh] at this
          revert this
          decide
        | nil =>
          rw [List.nil_append] at hh
          generalize t ++ b = x at hh hr
          cases x with
          | nil => cases hh
          | cons y x =>
            simp only [List.head?_cons, Option.some.injEq] at hh
            rw [hh, jsRead_bom] at hr
            simp [jsErr] at hr
      show jsLoad F _ = _
      rw [jsLoad, hu]
      simp only [String.toList_ofList]
      rw [if_neg hbom, hs]
      rw [show jsRead F jsonDepth (t ++ b) = .error (.other "RecursionError") from hr]
  · intro t ht
    obtain ⟨h1, h2⟩ := mpDeep F n 1024 t w ht
    split
    · next hn => exact (C112_msgpack F t w).2 (h1 hn)
    · next hn =>
      have hr := h2 (by omega) []
      rw [List.append_nil] at hr
      show mpLoad F t = _
      rw [mpLoad, show mpRead F mpStack t = .error (.other "StackError") from hr]

/-! ## Concrete cases -/

namespace Ex

/-- ` {"é\/" :[1 ,-2E3] }`, with white space, an escape with an upper case digit, an escaped slash and an exponent: none of these are written by the package. -/
example (fl : List Char → Nat) : JsonText fl [' ', '{', '"', '\\', 'u', '0', '0', 'E', '9', '\\', '/', '"', ' ', ':', '[', '1', ' ', ',', '-', '2', 'E', '3', ']', ' ', '}']
    (.map [(.str (String.ofList ['é', '/']), .arr [.int 1, .float (fl ['-', '2', 'E', '3'])])]) := by
  have key : JsText ['\\', 'u', '0', '0', 'E', '9', '\\', '/'] ['é', '/'] :=
    .cons (t := ['\\', 'u', '0', '0', 'E', '9']) (.number ⟨'0', '0', 'E', '9', 0, 0, 14, 9, rfl, .inl rfl, .inl rfl, .inr rfl, .inl rfl, rfl⟩) (.cons (t := ['\\', '/']) (.escape (by decide)) .nil)
  have one : JsValue fl 998 ['1'] (.int 1) := jsScalar_value (.number (.nat (w := ['1']) (.inr ⟨'1', [], rfl, by decide, ⟨by decide, by decide⟩, by simp⟩) (by decide))) 998
  have num : JsValue fl 998 ['-', '2', 'E', '3'] (.float (fl ['-', '2', 'E', '3'])) :=
    jsScalar_value (.number (.float (m := ['-']) (w := ['2']) (f := []) (e := ['E', '3']) (.inr rfl) (.inr ⟨'2', [], rfl, by decide, ⟨by decide, by decide⟩, by simp⟩) (.inl rfl)
      (.inr ⟨'E', [], ['3'], rfl, .inr rfl, .inl rfl, by simp, by intro x hx; rw [List.mem_singleton.1 hx]; exact ⟨by decide, by decide⟩⟩) (.inr (by simp)))) 998
  have blank : JsBlank [' '] := by intro c hc; exact .inl (List.mem_singleton.1 hc)
  have none : JsBlank [] := by intro c hc; cases hc
  have items : JsItems (JsValue fl 998) ['1', ' ', ',', '-', '2', 'E', '3'] [.int 1, .float (fl ['-', '2', 'E', '3'])] := .more (a := [' ']) (b := []) one blank none (.last (a := []) num none)
  have entries : JsEntries (JsValue fl 999) ['"', '\\', 'u', '0', '0', 'E', '9', '\\', '/', '"', ' ', ':', '[', '1', ' ', ',', '-', '2', 'E', '3', ']', ' ']
      [(.str (String.ofList ['é', '/']), .arr [.int 1, .float (fl ['-', '2', 'E', '3'])])] :=
    .last (a := [' ']) ⟨_, _, [' '], [], ['[', '1', ' ', ',', '-', '2', 'E', '3', ']'], key, blank, none, .inr (.inr (.inl ⟨[], _, _, none, items, rfl, rfl⟩)), rfl, rfl⟩ blank
  exact ⟨[' '], _, [], blank, none, .inr (.inr (.inr (.inr ⟨[], _, _, none, entries, rfl, rfl⟩))), rfl⟩

/-- `[1]`, with the length in four bytes and the number in eight: the package writes two bytes. -/
example (f32 : Nat → Nat) : MpBytes f32 1024 [0xdd, 0, 0, 0, 1, 0xcf, 0, 0, 0, 0, 0, 0, 0, 1] (.arr [.int 1]) ∧ mpWrite (.arr [.int 1]) = [0x91, 1] := by
  have one : MpBytes f32 1023 [0xcf, 0, 0, 0, 0, 0, 0, 0, 1] (.int 1) := mpScalar_bytes (.uint (n := 1) (.intro (b := [0, 0, 0, 0, 0, 0, 0, 1]) (by decide) rfl)) 1023
  exact ⟨.inr (.inl ⟨[0xdd, 0, 0, 0, 1], _, [.int 1], .inr (.intro (b := [0, 0, 0, 1]) (by decide) rfl), .cons one .nil, rfl, rfl⟩), rfl⟩

/-- No JSON: a number ending in a point, one beginning with 0, a lone surrogate, a comma at the end, other words and signs. -/
example : [['1', '.'], ['0', '1'], ['"', '\\', 'u', 'D', 'C', '0', '0', '"'], ['[', '1', ',', ']'], ['{', '"', '"', ':', '1', ',', '}'], ['n', 'u', 'l'], ['+', '1'], ['.', '5'], ['[', ']', ']']].all
    (fun t => match jsRead ⟨fun _ => 0, fun _ => [], fun _ => 0⟩ 2 t with | .ok (_, []) => false | _ => true) = true := by decide +kernel

end Ex

example (f32 : Nat → Nat) := C112_short f32 1024 [0xdd, 0, 0, 0, 1, 0xcf, 0, 0, 0, 0, 0, 0, 0, 1] (.arr [.int 1])
  (.inr (.inl ⟨[0xdd, 0, 0, 0, 1], _, [.int 1], .inr (.intro (b := [0, 0, 0, 1]) (by decide) rfl),
    .cons (mpScalar_bytes (.uint (n := 1) (.intro (b := [0, 0, 0, 0, 0, 0, 0, 1]) (by decide) rfl)) 1023) .nil, rfl, rfl⟩)) rfl
example := C112_refused_json ⟨fun _ => 0, fun _ => [], fun _ => 0⟩ [0xff] .unicodeError (by rfl)

end Verif
