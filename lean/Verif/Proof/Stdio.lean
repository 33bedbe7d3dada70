import Verif.Spec.Stdio
import Verif.Proof.Registry
/-!
# Lemmas for the pipe poller
-/
namespace Verif

theorem pyDecode_utf8 (t : List Char) : pyDecode (utf8 t) = .ok t := by
  have : (utf8 t).toByteArray = t.utf8Encode := rfl
  simp [pyDecode, this]

theorem utf8_append (a b : List Char) : utf8 (a ++ b) = utf8 a ++ utf8 b := List.flatMap_append

theorem utf8_newline : utf8 ['\n'] = [10] := by decide

/-- The byte 10 occurs only as a newline. -/
theorem newline_mem {c : Char} (h : (10 : UInt8) ∈ String.utf8EncodeChar c) : c = '\n' := by
  have hv : c.val.toNat < 1114112 := by have := c.valid; simp only [UInt32.isValidChar, Nat.isValidChar] at this; omega
  unfold String.utf8EncodeChar at h
  simp only at h
  have key : ∀ n : Nat, n < 256 → (10 : UInt8) = UInt8.ofNat n → n = 10 := by
    intro n hn h
    have := congrArg UInt8.toNat h
    simp only [UInt8.toNat_ofNat'] at this
    have h10 : (10 : UInt8).toNat = 10 := rfl
    omega
  split at h
  · simp only [List.mem_singleton] at h
    have := key _ (by omega) h
    exact Char.ext (UInt32.toNat_inj.1 this)
  · exfalso
    split at h
    · simp only [List.mem_cons, List.not_mem_nil, or_false] at h
      rcases h with h | h <;> have := key _ (by omega) h <;> omega
    · split at h
      · simp only [List.mem_cons, List.not_mem_nil, or_false] at h
        rcases h with h | h | h <;> have := key _ (by omega) h <;> omega
      · simp only [List.mem_cons, List.not_mem_nil, or_false] at h
        rcases h with h | h | h | h <;> have := key _ (by omega) h <;> omega

theorem newline_utf8 {t : List Char} (h : (10 : UInt8) ∈ utf8 t) : '\n' ∈ t := by
  simp only [utf8, List.mem_flatMap] at h
  obtain ⟨c, hc, h⟩ := h
  rw [← newline_mem h]; exact hc

theorem utf8_eq_nil {t : List Char} (h : utf8 t = []) : t = [] := by
  cases t with
  | nil => rfl
  | cons c t =>
    exfalso
    have h1 : (utf8 (c :: t)).length = 0 := by rw [h]; rfl
    have : (utf8 (c :: t)).length = (String.utf8EncodeChar c).length + (utf8 t).length := by simp [utf8]
    rw [this, String.length_utf8EncodeChar] at h1
    have := c.utf8Size_pos
    omega

theorem takeWhile_line {c x : Bytes} (h : (10 : UInt8) ∉ c) : (c ++ 10 :: x).takeWhile (· ≠ 10) = c ∧ (c ++ 10 :: x).dropWhile (· ≠ 10) = 10 :: x := by
  induction c with
  | nil => simp
  | cons a c ih =>
    simp only [List.mem_cons, not_or] at h
    have ha : (decide (a ≠ 10)) = true := by simpa using Ne.symm h.1
    simp only [List.cons_append, List.takeWhile_cons, List.dropWhile_cons, ha, if_true, (ih h.2).1, (ih h.2).2, and_self]

theorem line_unique {c d x y : Bytes} (hc : (10 : UInt8) ∉ c) (hd : (10 : UInt8) ∉ d) (h : c ++ 10 :: x = d ++ 10 :: y) : c = d ∧ x = y := by
  have h1 := takeWhile_line (x := x) hc
  have h2 := takeWhile_line (x := y) hd
  rw [h] at h1
  refine ⟨h1.1.symm.trans h2.1, ?_⟩
  have := h1.2.symm.trans h2.2
  simpa using this

theorem first_newline : ∀ (b : Bytes), (10 : UInt8) ∈ b → ∃ c x : Bytes, (10 : UInt8) ∉ c ∧ b = c ++ 10 :: x
  | [], h => by simp at h
  | a :: b, h => by
    by_cases ha : (10 : UInt8) = a
    · exact ⟨[], b, by simp, by simp [ha]⟩
    · obtain ⟨c, x, h1, h2⟩ := first_newline b (by simpa [ha] using h)
      exact ⟨a :: c, x, by simp [ha, h1], by simp [h2]⟩

theorem pipe_run_append (pre : List Char) (s : PipeSt) (a b : List PipeEv) :
    s.run pre (a ++ b) = (((s.run pre a).1.run pre b).1, (s.run pre a).2 ++ ((s.run pre a).1.run pre b).2) := by
  induction a generalizing s with
  | nil => rfl
  | cons e es ih => simp only [List.cons_append, PipeSt.run, ih, List.append_assoc]

theorem pipe_run_snoc (pre : List Char) (s : PipeSt) (es : List PipeEv) (e : PipeEv) :
    s.run pre (es ++ [e]) = (((s.run pre es).1.step pre e).1, (s.run pre es).2 ++ ((s.run pre es).1.step pre e).2) := by
  rw [pipe_run_append]; simp [PipeSt.run]

theorem pipedOf_append (a b : List PipeEv) : pipedOf (a ++ b) = pipedOf a ++ pipedOf b := List.flatMap_append

theorem writes_prefix {S : Bytes} {a b : List PipeEv} (h : Writes S (a ++ b)) : Writes S a := by
  refine ⟨?_, fun x y hxy => h.2 x (y ++ b) (by rw [hxy]; simp)⟩
  obtain ⟨t, ht⟩ := h.1
  exact ⟨pipedOf b ++ t, by rw [← ht, pipedOf_append, List.append_assoc]⟩

/-- The messages for the lines. -/
def lineMessages (pre : List Char) (ls : List (List Char)) : List PipeOut := ls.map fun l => .logged (pre ++ l)

/-- The last message, for what follows the last newline. -/
def lastMessage (pre last : List Char) : List PipeOut := if last = [] then [] else [.logged (pre ++ last.dropLast)]

/-- Where a poller is that was given `T`, a prefix of the stream of `ls` and `last`. -/
structure PipeAt (pre : List Char) (ls : List (List Char)) (last : List Char) (T : Bytes) (s : PipeSt) (os : List PipeOut) : Prop where
  eof : s.eof = true → T = linesBytes ls ++ utf8 last
  pos : (s.alive = true ∧ ∃ k, k ≤ ls.length ∧ T = linesBytes (ls.take k) ++ s.buf ∧ os = lineMessages pre (ls.take k)) ∨
    (s.alive = true ∧ last ≠ [] ∧ s.eof = true ∧ s.buf = [] ∧ os = lineMessages pre ls ++ lastMessage pre last) ∨
    (s.alive = false ∧ s.eof = true ∧ s.buf = [] ∧ os = lineMessages pre ls ++ lastMessage pre last ++ [.ended])

theorem pipe_go {pre ls last T s os} (hls : ∀ l ∈ ls, '\n' ∉ l) (hlast : '\n' ∉ last) (hT : T <+: linesBytes ls ++ utf8 last) (h : PipeAt pre ls last T s os) :
    PipeAt pre ls last T (s.go pre).1 (os ++ (s.go pre).2) := by
  obtain ⟨he, hpos⟩ := h
  obtain ⟨buf, eof, alive⟩ := s
  simp only at he hpos
  rcases hpos with ⟨rfl, k, hk, hT', ho⟩ | ⟨rfl, hl, rfl, rfl, ho⟩ | ⟨rfl, rfl, rfl, ho⟩
  · -- lines
    obtain ⟨rem, hrem⟩ := hT
    have hsplit : buf ++ rem = linesBytes (ls.drop k) ++ utf8 last := by
      have : linesBytes ls = linesBytes (ls.take k) ++ linesBytes (ls.drop k) := by
        conv => lhs; rw [← List.take_append_drop k ls]
        exact List.flatMap_append
      rw [hT', this, List.append_assoc, List.append_assoc] at hrem
      exact List.append_cancel_left hrem
    simp only [PipeSt.go, if_neg (show ¬ (true = false) by simp), PipeSt.readline]
    by_cases hn : (10 : UInt8) ∈ buf
    · -- a whole line
      rw [if_pos hn]
      simp only
      obtain ⟨c, x, hc, hcx⟩ := first_newline buf hn
      subst hcx
      rw [(takeWhile_line hc).1, (takeWhile_line hc).2]
      -- it is the next line
      cases hd : ls.drop k with
      | nil =>
        exfalso
        rw [hd] at hsplit
        simp only [linesBytes, List.flatMap_nil, List.nil_append] at hsplit
        exact hlast (newline_utf8 (by rw [← hsplit]; simp))
      | cons l rest =>
        have hl : l ∈ ls := List.mem_of_mem_drop (by rw [hd]; simp)
        rw [hd] at hsplit
        simp only [linesBytes, List.flatMap_cons, utf8_append, utf8_newline, List.append_assoc, List.cons_append, List.nil_append] at hsplit
        obtain ⟨hcl, hx⟩ := line_unique hc (fun h => hls l hl (newline_utf8 h)) hsplit
        have hkl : k < ls.length := by
          rcases Nat.lt_or_ge k ls.length with h | h
          · exact h
          · rw [List.drop_eq_nil_of_le h] at hd; cases hd
        have hget : ls[k] = l := by
          have := List.drop_eq_getElem_cons hkl
          rw [hd] at this
          exact (List.cons.inj this).1.symm
        have htake : ls.take (k + 1) = ls.take k ++ [l] := by rw [List.take_succ_eq_append_getElem hkl, hget]
        have hdec : pyDecode (c ++ [10]) = .ok (l ++ ['\n']) := by
          rw [hcl, ← utf8_newline, ← utf8_append]; exact pyDecode_utf8 _
        rw [hdec]
        simp only [if_neg (show ¬ (l ++ ['\n'] = []) by simp), List.dropLast_concat]
        refine ⟨he, Or.inl ⟨rfl, k + 1, hkl, ?_, ?_⟩⟩
        · rw [hT', htake]
          simp [linesBytes, utf8_append, utf8_newline, hcl]
        · rw [ho, htake]
          simp [lineMessages]
    · rw [if_neg hn]
      cases eof with
      | false => simpa using ⟨he, Or.inl ⟨rfl, k, hk, hT', ho⟩⟩
      | true =>
        have hfull := he rfl
        simp only [if_true]
        have hrem0 : rem = [] := by
          rw [← hfull] at hrem
          have := congrArg List.length hrem
          simp at this
          exact this
        subst hrem0
        rw [List.append_nil] at hsplit
        -- nothing but the last piece is left
        have hdrop : ls.drop k = [] := by
          cases hd : ls.drop k with
          | nil => rfl
          | cons l rest =>
            exfalso
            rw [hd] at hsplit
            exact hn (by rw [hsplit]; simp [linesBytes, utf8_append, utf8_newline])
        have hkl : ls.take k = ls := List.take_of_length_le (List.drop_eq_nil_iff.1 hdrop)
        rw [hdrop] at hsplit
        simp only [linesBytes, List.flatMap_nil, List.nil_append] at hsplit
        rw [hsplit, pyDecode_utf8]
        simp only
        rw [hkl] at ho
        by_cases hl : last = []
        · rw [if_pos hl]
          exact ⟨he, Or.inr (Or.inr ⟨rfl, rfl, rfl, by simp [ho, lastMessage, hl]⟩)⟩
        · rw [if_neg hl]
          exact ⟨he, Or.inr (Or.inl ⟨rfl, hl, rfl, rfl, by simp [ho, lastMessage, hl]⟩)⟩
  · have hnil : pyDecode [] = .ok [] := pyDecode_utf8 []
    simp only [PipeSt.go, if_neg (show ¬ (true = false) by simp), PipeSt.readline, List.not_mem_nil, if_false, if_true, hnil]
    exact ⟨he, Or.inr (Or.inr ⟨rfl, rfl, rfl, by rw [ho]⟩)⟩
  · simp only [PipeSt.go, if_true, List.append_nil]
    exact ⟨he, Or.inr (Or.inr ⟨rfl, rfl, rfl, ho⟩)⟩

theorem pipe_run (pre : List Char) (ls : List (List Char)) (last : List Char) (hls : ∀ l ∈ ls, '\n' ∉ l) (hlast : '\n' ∉ last) (es : List PipeEv)
    (h : Writes (linesBytes ls ++ utf8 last) es) : PipeAt pre ls last (pipedOf es) (PipeSt.run pre {} es).1 (PipeSt.run pre {} es).2 := by
  induction es using snoc_induction with
  | h0 => exact ⟨by simp [PipeSt.run], Or.inl ⟨rfl, 0, Nat.zero_le _, by simp [PipeSt.run, pipedOf, linesBytes], by simp [PipeSt.run, lineMessages]⟩⟩
  | hs es e ih =>
    have hp := writes_prefix h
    have i := ih hp
    rw [pipe_run_snoc, pipedOf_append]
    cases e with
    | go =>
      have : pipedOf [PipeEv.go] = [] := rfl
      rw [this, List.append_nil]
      exact pipe_go hls hlast hp.1 i
    | closed =>
      have : pipedOf [PipeEv.closed] = [] := rfl
      rw [this, List.append_nil]
      have hall := h.2 es [] rfl
      obtain ⟨_, hpos⟩ := i
      refine ⟨fun _ => hall, ?_⟩
      simp only [PipeSt.step, List.append_nil]
      rcases hpos with h1 | ⟨h1, h2, h3, h4⟩ | ⟨h1, h2, h3⟩
      · exact Or.inl h1
      · exact Or.inr (Or.inl ⟨h1, h2, trivial, h4⟩)
      · exact Or.inr (Or.inr ⟨h1, trivial, h3⟩)
    | wrote b =>
      have hw : pipedOf [PipeEv.wrote b] = b := by simp [pipedOf]
      rw [hw]
      obtain ⟨he, hpos⟩ := i
      have hT := h.1
      rw [pipedOf_append, hw] at hT
      have hb : (PipeSt.run pre {} es).1.eof = true → b = [] := by
        intro hh
        have h1 := he hh
        have := hT.length_le
        rw [List.length_append, ← h1] at this
        exact List.length_eq_zero_iff.1 (by omega)
      generalize PipeSt.run pre {} es = r at he hpos hb
      obtain ⟨⟨buf, eof, alive⟩, os⟩ := r
      simp only [PipeSt.step, List.append_nil] at he hpos hb ⊢
      refine ⟨fun hh => by rw [hb hh, List.append_nil]; exact he hh, ?_⟩
      rcases hpos with ⟨h1, k, h2, h3, h4⟩ | ⟨h1, h2, h3, h4, h5⟩ | ⟨h1, h2, h3, h4⟩
      · exact Or.inl ⟨h1, k, h2, by rw [h3, List.append_assoc], h4⟩
      · exact Or.inr (Or.inl ⟨h1, h2, h3, by rw [h4, hb h3]; rfl, h5⟩)
      · exact Or.inr (Or.inr ⟨h1, h2, by rw [h3, hb h2]; rfl, h4⟩)

end Verif
