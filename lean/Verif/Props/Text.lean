import Verif.Proof.Text
/-!
# C22 and C25: dates and binary data as text
-/
namespace Verif

/-! ## C22 -/

/-- **C22.** Every valid datetime with a four-digit year (or any year where `%Y` is zero-padded) is restored to
the microsecond; timezone and fold are gone, so exactly the naive, unfolded datetimes come back unchanged. -/
theorem C22_datetime_roundtrip (pad : Bool) (t : DateTime) (hv : t.valid = true) (hy : 1000 ≤ t.year ∨ pad = true) :
    parseDateTime (fmtDateTime pad t) = .ok { t with tz := none, fold := false } ∧
    (parseDateTime (fmtDateTime pad t) = .ok t ↔ t.tz = none ∧ t.fold = false) := by
  have h := parseDateTime_fmt hv hy
  refine ⟨h, ?_⟩
  rw [h]
  obtain ⟨y, mo, d, hh, mi, s, us, tz, fold⟩ := t
  simp [eq_comm]

/-- **C22.** Every valid date with a four-digit year (or any year where `%Y` is zero-padded) is restored. -/
theorem C22_date_roundtrip (pad : Bool) (d : Date) (hv : d.valid = true) (hy : 1000 ≤ d.year ∨ pad = true) :
    parseDate (fmtDate pad d.year d.month d.day) = .ok d := parseDate_fmt hv hy

/-- **C22.** Whatever text is parsed, the result never has a timezone. -/
theorem C22_timezone_lost (s : List Char) (t : DateTime) (h : parseDateTime s = .ok t) : t.tz = none := by
  obtain ⟨_, _, _, _, _, _, _, _, _, _, _, _, _, _, _, _, _, rfl, _⟩ := (parseDateTime_iff s t).1 h
  rfl

/-- **C22.** Without zero padding, years below 1000 are refused (`ValueError`) rather than misread. -/
theorem C22_short_year_refused (t : DateTime) (y m d : Nat) :
    (t.year < 1000 → parseDateTime (fmtDateTime false t) = .error .valueError) ∧
    (y < 1000 → parseDate (fmtDate false y m d) = .error .valueError) :=
  ⟨fun h => parseDateTime_short h, fun h => parseDate_short h m d⟩

example : String.ofList (fmtDateTime false ⟨2024, 2, 29, 23, 5, 9, 1234, some 3600, true⟩) = "2024-02-29T23:05:09.001234" := by
  decide
example : DateTime.valid ⟨2024, 2, 29, 23, 5, 9, 1234, none, false⟩ = true ∧ DateTime.valid ⟨2023, 2, 29, 0, 0, 0, 0, none, false⟩ = false := by
  decide
example : parseDateTime "2024-02-29T23:05:09.001234".toList = .ok ⟨2024, 2, 29, 23, 5, 9, 1234, none, false⟩ := by decide
example : parseDate (fmtDate false 987 6 5) = .error .valueError ∧ parseDate (fmtDate true 987 6 5) = .ok ⟨987, 6, 5⟩ := by
  decide

/-! ## C25 -/

/-- The 64 characters of RFC 4648 and the padding character. -/
def b64Alphabet : List Char := "ABCDEFGHIJKLMNOPQRSTUVWXYZabcdefghijklmnopqrstuvwxyz0123456789+/=".toList

theorem b64Char_alphabet : ∀ n, n < 64 → b64Char n ∈ b64Alphabet := by decide

/-- **C25.** Base64 text decodes to the original bytes. -/
theorem C25_base64_roundtrip (b : Bytes) : b64decode (b64encode b) = .ok b := b64_roundtrip b

/-- **C25.** Base64 text uses only the alphabet and has length `4 * ceil(n / 3)`. -/
theorem C25_base64_text (b : Bytes) :
    (∀ c ∈ b64encode b, c ∈ b64Alphabet) ∧ (b64encode b).length = 4 * ((b.length + 2) / 3) := by
  refine ⟨?_, b64encode_length b⟩
  intro c hc
  rcases b64encode_alphabet b c hc with rfl | ⟨n, hn, rfl⟩
  · decide
  · exact b64Char_alphabet n hn

/-- **C25.** Different byte strings have different texts. -/
theorem C25_base64_injective (a b : Bytes) (h : b64encode a = b64encode b) : a = b := by
  have := b64_roundtrip a
  rw [h, b64_roundtrip b] at this
  simpa using this.symm

example : String.ofList (b64encode [77, 97, 110]) = "TWFu" ∧ String.ofList (b64encode [77, 97]) = "TWE=" ∧
    String.ofList (b64encode [255]) = "/w==" := by decide

/-! ## The theorems on these cases -/

example := C22_datetime_roundtrip false ⟨2024, 2, 29, 23, 5, 9, 1234, some 3600, true⟩ (by decide) (.inl (by decide))
example := C22_datetime_roundtrip true ⟨987, 2, 28, 23, 5, 9, 0, none, false⟩ (by decide) (.inr rfl)
example := C22_date_roundtrip false ⟨2024, 2, 29⟩ (by decide) (.inl (by decide))
example := C22_timezone_lost "2024-02-29T23:05:09.001234".toList ⟨2024, 2, 29, 23, 5, 9, 1234, none, false⟩ (by decide)
/-- Different texts come from different bytes. -/
example (b : Bytes) (h : b64encode [77, 97] = b64encode b) : [77, 97] = b := C25_base64_injective _ b h

end Verif
