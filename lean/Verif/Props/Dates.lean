import Verif.Props.SerializerExample
import Verif.Proof.Dates
import Verif.Props.Malformed
/-!
# C22: which texts of dates and times are read, and as what

`strptime` reads more texts than `strftime` writes. Messages of another implementation may use them.
-/
namespace Verif

/-- **C22.** The ASCII texts read as a date are exactly those of the form of `DateText` that name a date that exists; the date read
is the one named. -/
theorem C22_date_text (s : List Char) (hs : AsciiText s) (x : Date) :
    parseDate s = .ok x ↔ DateText s x.year x.month x.day ∧ RealDate x.year x.month x.day := by
  rw [parseDate_ascii hs, valid_real]

/-- **C22.** The ASCII texts read as a date with a time are exactly those of the form of `DateTimeText` that name a date that exists
and a time of the day; what is read is what is named, without timezone and fold. -/
theorem C22_datetime_text (s : List Char) (hs : AsciiText s) (x : DateTime) :
    parseDateTime s = .ok x ↔ DateTimeText s x.year x.month x.day x.hour x.minute x.second x.micro ∧ RealDate x.year x.month x.day ∧
      x.hour < 24 ∧ x.minute < 60 ∧ x.second < 60 ∧ x.tz = none ∧ x.fold = false := by
  rw [parseDateTime_ascii hs, DateTime.valid_iff, valid_real]
  constructor
  · rintro ⟨h, ⟨h1, h2, h3, h4, h5⟩, h6, h7⟩; exact ⟨h, h1, h2, h3, h4, h6, h7⟩
  · rintro ⟨h, h1, h2, h3, h4, h6, h7⟩
    refine ⟨h, ⟨h1, h2, h3, h4, ?_⟩, h6, h7⟩
    obtain ⟨_, _, _, _, _, F, f, _, _, _, _, _, _, h8, h9, h10⟩ := h
    rw [h10]
    have hf : f < 10 ^ F.length := by
      obtain ⟨_, h11, h12⟩ := h9
      rw [← h12]
      clear h12 h10 h8
      suffices ∀ (l : List Char) k n, k < 10 ^ n → (∀ c ∈ l, '0'.toNat ≤ c.toNat ∧ c.toNat ≤ '9'.toNat) →
          l.foldl (fun n c => 10 * n + (c.toNat - '0'.toNat)) k < 10 ^ (n + l.length) by
        simpa using this F 0 0 (by decide) h11
      intro l
      induction l with
      | nil => intro k n hk _; exact hk
      | cons c l ih =>
        intro k n hk hc
        have h1 := (hc c List.mem_cons_self).2
        have e9 : '9'.toNat = 57 := rfl
        have e0 : '0'.toNat = 48 := rfl
        have := ih (10 * k + (c.toNat - '0'.toNat)) (n + 1) (by rw [Nat.pow_succ]; omega) fun x hx => hc x (List.mem_cons_of_mem _ hx)
        rw [List.foldl_cons, List.length_cons]
        rwa [show n + (l.length + 1) = n + 1 + l.length by omega]
    have hm : f * 10 ^ (6 - F.length) < 10 ^ F.length * 10 ^ (6 - F.length) := Nat.mul_lt_mul_of_pos_right hf (Nat.pow_pos (by decide))
    rw [← Nat.pow_add, show F.length + (6 - F.length) = 6 by omega] at hm
    simpa using hm

/-- **C22.** A date message with an ASCII text gives the date the text names, and ValueError if it names none. -/
theorem C22_date_message (R : RecvEnv) (d : List (Val × Val)) (s : String) (ht : lookupStr d encodeKey = some (.str "date"))
    (hs : lookupStr d "data" = some (.str s)) (ha : AsciiText s.toList) :
    (∀ x : Date, DateText s.toList x.year x.month x.day → RealDate x.year x.month x.day → decode R d = .ok (.date x)) ∧
    ((∀ x : Date, ¬ (DateText s.toList x.year x.month x.day ∧ RealDate x.year x.month x.day)) → decode R d = .error .valueError) := by
  have hd : decode R d = match parseDate s.toList with
      | .ok t => .ok (.date t)
      | .error e => .error e := by
    simp only [decode, ht, Val.text?, Val.core, need]
    rw [lookupStr_removeStr_ne (by decide) d, hs]
    rfl
  rw [hd]
  constructor
  · intro x h1 h2; rw [(C22_date_text _ ha x).2 ⟨h1, h2⟩]
  · intro h
    rw [parseDate_error fun x hx => h x ((C22_date_text _ ha x).1 hx)]

/-- **C22.** A datetime message with an ASCII text gives the moment the text names, and ValueError if it names none. -/
theorem C22_datetime_message (R : RecvEnv) (d : List (Val × Val)) (s : String) (ht : lookupStr d encodeKey = some (.str "datetime"))
    (hs : lookupStr d "data" = some (.str s)) (ha : AsciiText s.toList) :
    (∀ y m da h mi se us, DateTimeText s.toList y m da h mi se us → RealDate y m da → h < 24 → mi < 60 → se < 60 →
      decode R d = .ok (.datetime ⟨y, m, da, h, mi, se, us, none, false⟩)) ∧
    ((∀ y m da h mi se us, ¬ (DateTimeText s.toList y m da h mi se us ∧ RealDate y m da ∧ h < 24 ∧ mi < 60 ∧ se < 60)) →
      decode R d = .error .valueError) := by
  have hd : decode R d = match parseDateTime s.toList with
      | .ok t => .ok (.datetime t)
      | .error e => .error e := by
    simp only [decode, ht, Val.text?, Val.core, need]
    rw [lookupStr_removeStr_ne (by decide) d, hs]
    rfl
  rw [hd]
  constructor
  · intro y m da h mi se us h1 h2 h3 h4 h5
    rw [(C22_datetime_text _ ha ⟨y, m, da, h, mi, se, us, none, false⟩).2 ⟨h1, h2, h3, h4, h5, rfl, rfl⟩]
  · intro h
    rw [parseDateTime_error fun x hx => ?_]
    obtain ⟨h1, h2, h3, h4, h5, _⟩ := (C22_datetime_text _ ha x).1 hx
    exact h _ _ _ _ _ _ _ ⟨h1, h2, h3, h4, h5⟩

/-! ## Examples -/

example : DateTimeText "2024-2- 3t1:02:3.25".toList 2024 2 3 1 2 3 250000 := by
  refine ⟨"2024-2- 3".toList, 't', ['1'], ['0', '2'], ['3'], ['2', '5'], 25, rfl, ⟨"2024".toList, ['2'], [' ', '3'], rfl, rfl, ?_, ?_, ?_⟩, .inr rfl, ?_, ?_, ?_,
    by decide, ?_, by decide⟩
  · exact ⟨by decide, by decide, by decide⟩
  · exact ⟨by decide, by decide, by decide, by decide⟩
  · exact .inr ⟨'3', rfl, by decide, by decide, by decide⟩
  · exact ⟨by decide, by decide, by decide, by decide⟩
  · exact ⟨by decide, by decide, by decide, by decide⟩
  · exact ⟨by decide, by decide, by decide, by decide⟩
  · exact ⟨by decide, by decide, by decide⟩
example : RealDate 2024 2 3 ∧ AsciiText "2024-2- 3t1:02:3.25".toList := by
  constructor
  · simp [RealDate]
  · unfold AsciiText; decide
example : (match parseDateTime "2024-2- 3t1:02:3.25".toList with
    | .ok t => t == ⟨2024, 2, 3, 1, 2, 3, 250000, none, false⟩ | .error _ => false) = true := by decide +kernel
/-- A text that goes on, other separators and a second of 60 are refused. -/
example : (["2024-02-03 ", "2024/02/03", "2024-2-30", "24-2-3", "2024-02-3x"].all fun s =>
    match parseDate s.toList with | .ok _ => false | .error _ => true) = true := by decide +kernel
example : (match parseDateTime "2024-02-03T01:02:60.0".toList with | .ok _ => false | .error _ => true) = true := by decide +kernel

example := C22_date_text "2024-2- 3".toList (by unfold AsciiText; decide) ⟨2024, 2, 3⟩
example := C22_datetime_text "2024-2- 3t1:02:3.25".toList (by unfold AsciiText; decide) ⟨2024, 2, 3, 1, 2, 3, 250000, none, false⟩
example := C22_date_message Ex.recvB [(.str encodeKey, .str "date"), (.str "data", .str "2024-2- 3")] "2024-2- 3" rfl rfl (by unfold AsciiText; decide)
example := C22_datetime_message Ex.recvB [(.str encodeKey, .str "datetime"), (.str "data", .str "2024-02-03T1:02:60.0")] "2024-02-03T1:02:60.0" rfl rfl (by unfold AsciiText; decide)

end Verif
