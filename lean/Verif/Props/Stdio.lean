import Verif.Proof.Stdio
/-!
# C57: output of children becomes log messages
-/
namespace Verif

/-- The texts logged. -/
def textsOf (os : List PipeOut) : List (List Char) := os.filterMap fun o => match o with | .logged t => some t | _ => none

theorem textsOf_lines (pre : List Char) (ls) : textsOf (lineMessages pre ls) = ls.map (pre ++ ·) := by
  induction ls with
  | nil => rfl
  | cons l ls ih => simpa [textsOf, lineMessages] using ih

theorem textsOf_append (a b : List PipeOut) : textsOf (a ++ b) = textsOf a ++ textsOf b := List.filterMap_append

/-- **C57** For every list of lines, every prefix and every chunking, at every moment: what was logged are the first lines of the child, in order, each with the
prefix and without its newline; the thread does not die, and if it ended all lines were logged. -/
theorem C57_lines (pre : List Char) (ls : List (List Char)) (hls : ∀ l ∈ ls, '\n' ∉ l) (es : List PipeEv) (h : Writes (linesBytes ls) es) :
    (∃ k, textsOf (PipeSt.run pre {} es).2 = (ls.take k).map (pre ++ ·)) ∧ (∀ e, .crashed e ∉ (PipeSt.run pre {} es).2) ∧
    (.ended ∈ (PipeSt.run pre {} es).2 → textsOf (PipeSt.run pre {} es).2 = ls.map (pre ++ ·)) := by
  have h := pipe_run pre ls [] hls (by simp) es (by simpa [utf8] using h)
  have hl : ∀ (ls' : List (List Char)) (o : PipeOut), o ∈ lineMessages pre ls' → ∃ t, o = .logged t := by
    intro ls' o ho
    simp only [lineMessages, List.mem_map] at ho
    obtain ⟨l, _, rfl⟩ := ho
    exact ⟨_, rfl⟩
  rcases h.pos with ⟨_, k, _, _, ho⟩ | ⟨_, hl, _⟩ | ⟨_, _, _, ho⟩
  · rw [ho]
    refine ⟨⟨k, textsOf_lines pre _⟩, ?_, ?_⟩
    · intro e he; obtain ⟨t, ht⟩ := hl _ _ he; cases ht
    · intro he; obtain ⟨t, ht⟩ := hl _ _ he; cases ht
  · exact absurd rfl hl
  · rw [ho]
    have hall : textsOf (lineMessages pre ls ++ lastMessage pre [] ++ [.ended]) = ls.map (pre ++ ·) := by
      rw [textsOf_append, textsOf_append, textsOf_lines]
      simp [lastMessage, textsOf]
    refine ⟨⟨ls.length, by rw [List.take_length]; exact hall⟩, ?_, fun _ => hall⟩
    intro e he
    simp only [lastMessage, if_true, List.append_nil, List.mem_append, List.mem_singleton] at he
    rcases he with he | he
    · obtain ⟨t, ht⟩ := hl _ _ he; cases ht
    · cases he

/-- How often the thread can still go. -/
def PipeSt.work (s : PipeSt) : Nat := if s.alive then s.buf.length + 1 else 0

theorem pipe_go_work (pre : List Char) (s : PipeSt) (he : s.eof = true) (h : s.work ≠ 0) : (s.go pre).1.work < s.work ∧ (s.go pre).1.eof = true := by
  obtain ⟨buf, eof, alive⟩ := s
  simp only at he
  subst he
  cases alive with
  | false => simp [PipeSt.work] at h
  | true =>
    simp only [PipeSt.go, if_neg (show ¬ (true = false) by simp), PipeSt.readline, if_true]
    by_cases hn : (10 : UInt8) ∈ buf
    · rw [if_pos hn]
      obtain ⟨c, x, hc, rfl⟩ := first_newline buf hn
      rw [(takeWhile_line hc).1, (takeWhile_line hc).2]
      simp only [List.drop_succ_cons, List.drop_zero]
      repeat' split
      all_goals simp [PipeSt.work]
      omega
    · rw [if_neg hn]
      simp only
      cases hd : pyDecode buf with
      | error e => simp [PipeSt.work]
      | ok line =>
        simp only
        split
        · simp [PipeSt.work]
        · rename_i hl
          refine ⟨?_, rfl⟩
          cases buf with
          | nil =>
            exfalso
            have : pyDecode [] = .ok [] := pyDecode_utf8 []
            rw [this] at hd; cases hd; exact hl rfl
          | cons b buf => simp [PipeSt.work]

/-- After the pipe is closed the thread comes to its end. -/
theorem pipe_ends (pre : List Char) (s : PipeSt) (he : s.eof = true) : ∃ n, (s.run pre (List.replicate n .go)).1.alive = false := by
  have key : ∀ n (s : PipeSt), s.eof = true → s.work ≤ n → ∃ n, (s.run pre (List.replicate n .go)).1.alive = false := by
    intro n
    induction n with
    | zero =>
      intro s he hw
      refine ⟨0, ?_⟩
      unfold PipeSt.work at hw
      cases ha : s.alive with
      | false => exact ha
      | true => simp [ha] at hw
    | succ n ih =>
      intro s he hw
      by_cases h0 : s.work = 0
      · exact ih s he (by omega)
      · obtain ⟨h1, h2⟩ := pipe_go_work pre s he h0
        obtain ⟨m, hm⟩ := ih (s.go pre).1 h2 (by omega)
        exact ⟨m + 1, by simpa [List.replicate_succ, PipeSt.run, PipeSt.step] using hm⟩
  exact key _ s he (Nat.le_refl _)

theorem pipe_complete (pre : List Char) (ls : List (List Char)) (last : List Char) (hls : ∀ l ∈ ls, '\n' ∉ l) (hlast : '\n' ∉ last) (es : List PipeEv)
    (h : Writes (linesBytes ls ++ utf8 last) es) (hc : .closed ∈ es) :
    ∃ n, (PipeSt.run pre {} (es ++ List.replicate n .go)).2 = lineMessages pre ls ++ lastMessage pre last ++ [.ended] := by
  have heof : (PipeSt.run pre {} es).1.eof = true := by
    have keep : ∀ (es : List PipeEv) (s : PipeSt), s.eof = true → (s.run pre es).1.eof = true := by
      intro es
      induction es with
      | nil => intro s h; exact h
      | cons e es ih =>
        intro s h
        refine ih _ ?_
        cases e with
        | wrote b => exact h
        | closed => rfl
        | go =>
          simp only [PipeSt.step, PipeSt.go]
          repeat' split
          all_goals exact h
    obtain ⟨a, b, rfl⟩ := List.append_of_mem hc
    rw [pipe_run_append]
    simp only [PipeSt.run]
    exact keep b _ rfl
  obtain ⟨n, hn⟩ := pipe_ends pre _ heof
  refine ⟨n, ?_⟩
  have hw : Writes (linesBytes ls ++ utf8 last) (es ++ List.replicate n .go) := by
    refine ⟨?_, ?_⟩
    · have : pipedOf (List.replicate n PipeEv.go) = [] := by
        induction n with
        | zero => rfl
        | succ n ih => simp [pipedOf, List.replicate_succ]
      rw [pipedOf_append, this, List.append_nil]
      exact h.1
    · intro a b hab
      rw [List.append_eq_append_iff] at hab
      rcases hab with ⟨x, rfl, hx⟩ | ⟨x, hx, hy⟩
      · have : PipeEv.closed ∈ List.replicate n PipeEv.go := by rw [hx]; simp
        simp at this
      · cases x with
        | nil =>
          have : PipeEv.closed ∈ List.replicate n PipeEv.go := by rw [← List.nil_append (List.replicate n _), ← hy]; simp
          simp at this
        | cons y x =>
          simp only [List.cons_append, List.cons.injEq] at hy
          exact h.2 a x (by rw [hx, ← hy.1])
  have hp := pipe_run pre ls last hls hlast _ hw
  rw [pipe_run_append] at hp ⊢
  rcases hp.pos with ⟨ha, _⟩ | ⟨ha, _⟩ | ⟨_, _, _, ho⟩
  · simp only at ha; rw [hn] at ha; cases ha
  · simp only at ha; rw [hn] at ha; cases ha
  · exact ho

/-- **C57** When the child has written its lines, in any chunks, and closed the pipe, every line becomes exactly one message; then the thread ends. -/
theorem C57_all (pre : List Char) (ls : List (List Char)) (hls : ∀ l ∈ ls, '\n' ∉ l) (es : List PipeEv) (h : Writes (linesBytes ls) es) (hc : .closed ∈ es) :
    ∃ n, (PipeSt.run pre {} (es ++ List.replicate n .go)).2 = (ls.map fun l => .logged (pre ++ l)) ++ [.ended] := by
  obtain ⟨n, hn⟩ := pipe_complete pre ls [] hls (by simp) es (by simpa [utf8] using h) hc
  exact ⟨n, by simpa [lineMessages, lastMessage] using hn⟩

/-- **C57 fails** for streams that do not end in a newline: the last line is logged without its last character, whatever it is. -/
theorem C57_fails_last (pre : List Char) (ls : List (List Char)) (last : List Char) (c : Char) (hls : ∀ l ∈ ls, '\n' ∉ l) (hlast : '\n' ∉ last ++ [c]) (es : List PipeEv)
    (h : Writes (linesBytes ls ++ utf8 (last ++ [c])) es) (hc : .closed ∈ es) :
    ∃ n, (PipeSt.run pre {} (es ++ List.replicate n .go)).2 = (ls.map fun l => .logged (pre ++ l)) ++ [.logged (pre ++ last), .ended] := by
  obtain ⟨n, hn⟩ := pipe_complete pre ls (last ++ [c]) hls hlast es h hc
  exact ⟨n, by simpa [lineMessages, lastMessage] using hn⟩

/-- **C57 fails** for bytes that are not UTF-8: once a line cannot be decoded the thread is dead, nothing that follows is ever logged (and the child blocks when
the pipe is full). -/
theorem C57_fails_decode (pre : List Char) (b rest : Bytes) (e : Exc) (hb : (10 : UInt8) ∉ b) (h : pyDecode (b ++ [10]) = .error e) (es : List PipeEv) :
    (PipeSt.run pre {} (.wrote (b ++ 10 :: rest) :: .go :: es)).2 = [.crashed e] := by
  have dead : ∀ (es : List PipeEv) (s : PipeSt), s.alive = false → (s.run pre es).2 = [] := by
    intro es
    induction es with
    | nil => intros; rfl
    | cons x es ih =>
      intro s hs
      have hx : (s.step pre x).2 = [] ∧ (s.step pre x).1.alive = false := by
        cases x <;> simp [PipeSt.step, PipeSt.go, hs]
      simp only [PipeSt.run, hx.1, ih _ hx.2, List.append_nil]
  have hgo : PipeSt.go pre { buf := b ++ 10 :: rest } = ({ buf := rest, alive := false }, [.crashed e]) := by
    have hm : (10 : UInt8) ∈ b ++ 10 :: rest := by simp
    simp only [PipeSt.go, PipeSt.readline, if_pos hm, (takeWhile_line hb).1, (takeWhile_line hb).2, h]
    simp
  have h2 : (PipeSt.run pre {} (.wrote (b ++ 10 :: rest) :: .go :: es)).2 =
      (PipeSt.go pre { buf := b ++ 10 :: rest }).2 ++ ((PipeSt.go pre { buf := b ++ 10 :: rest }).1.run pre es).2 := rfl
  rw [h2, hgo, dead es _ rfl]
  rfl

namespace Ex

/-- "été\nok\n", cut inside a character. -/
def frenchEvents : List PipeEv := [.wrote [0xC3], .go, .wrote [0xA9, 0x74, 0xC3, 0xA9, 10, 0x6F], .go, .wrote [0x6B, 10], .closed]

example : Writes (linesBytes ["été".toList, "ok".toList]) frenchEvents ∧ PipeEv.closed ∈ frenchEvents := by
  have hS : linesBytes ["été".toList, "ok".toList] = [0xC3, 0xA9, 0x74, 0xC3, 0xA9, 10, 0x6F, 0x6B, 10] := by decide +kernel
  have hW : pipedOf frenchEvents = [0xC3, 0xA9, 0x74, 0xC3, 0xA9, 10, 0x6F, 0x6B, 10] := by decide +kernel
  refine ⟨⟨by rw [hS, hW]; exact List.prefix_refl _, ?_⟩, by decide⟩
  intro a b hab
  have hlen := congrArg List.length hab
  simp only [frenchEvents, List.length_append, List.length_cons, List.length_nil] at hlen
  have hw : pipedOf frenchEvents = pipedOf a ++ pipedOf b := by rw [hab, pipedOf_append]; rfl
  -- the only `closed` is the last event
  have hb : b = [] := by
    have h5 : frenchEvents[a.length]? = some .closed := by rw [hab]; simp
    have ha : a.length = 5 := by
      have hlt : a.length < 6 := by omega
      have : ∀ i < 6, frenchEvents[i]? = some .closed → i = 5 := by decide
      exact this _ hlt h5
    exact List.length_eq_zero_iff.1 (by omega)
  subst hb
  rw [hS, ← hW, hw]
  simp [pipedOf]

/-- A line ending in an invalid byte. -/
example : ∃ e, pyDecode ([0xFF] ++ [10]) = .error e := by
  refine ⟨.valueError, ?_⟩
  have : ByteArray.utf8Decode? (List.toByteArray [0xFF, 10]) = none := by
    rw [ByteArray.utf8Decode?, ByteArray.utf8Decode?.go]
    have h : ByteArray.utf8DecodeChar? (List.toByteArray [0xFF, 10]) 0 = none := by decide +kernel
    split
    · split
      · rfl
      · rename_i h'; rw [h] at h'; cases h'
    · rename_i h'; exact absurd (by decide) h'
  simp [pyDecode, this]

end Ex

namespace Ex

/-! ## The theorems on these cases -/

/-- Events that write all of `S` and then close. -/
theorem writes_closed {S : Bytes} {es : List PipeEv} (h : pipedOf es = S) (hc : ∀ i < es.length, es[i]? = some .closed → i + 1 = es.length) : Writes S es := by
  refine ⟨by rw [h]; exact List.prefix_refl _, ?_⟩
  intro a b hab
  have h5 : es[a.length]? = some .closed := by rw [hab]; simp
  have h6 := hc a.length (by rw [hab]; simp) h5
  have hb : b = [] := List.length_eq_zero_iff.1 (by
    have h7 := congrArg List.length hab
    simp only [List.length_append, List.length_cons] at h7
    omega)
  subst hb
  rw [← h, hab, pipedOf_append]
  simp [pipedOf]

theorem french_lines : linesBytes ["été".toList, "ok".toList] = [0xC3, 0xA9, 0x74, 0xC3, 0xA9, 10, 0x6F, 0x6B, 10] := by decide +kernel
theorem french_writes : Writes (linesBytes ["été".toList, "ok".toList]) frenchEvents := by
  rw [french_lines]; exact writes_closed (by decide +kernel) (by decide)
example (pre : List Char) := C57_lines pre _ (by decide +kernel) frenchEvents french_writes
example (pre : List Char) := C57_all pre _ (by decide +kernel) frenchEvents french_writes (by decide)
/-- "été\nok", without a newline at the end. -/
example (pre : List Char) := C57_fails_last pre ["été".toList] ['o'] 'k' (by decide +kernel) (by decide +kernel)
  [.wrote [0xC3], .go, .wrote [0xA9, 0x74, 0xC3, 0xA9, 10, 0x6F], .go, .wrote [0x6B], .closed]
  (writes_closed (by
    rw [show linesBytes ["été".toList] ++ utf8 (['o'] ++ ['k']) = [0xC3, 0xA9, 0x74, 0xC3, 0xA9, 10, 0x6F, 0x6B] by decide +kernel]; decide +kernel) (by decide)) (by decide)
theorem bad_line : ∃ e, pyDecode ([0xFF] ++ [10]) = .error e := by
  refine ⟨.valueError, ?_⟩
  have : ByteArray.utf8Decode? (List.toByteArray [0xFF, 10]) = none := by
    rw [ByteArray.utf8Decode?, ByteArray.utf8Decode?.go]
    have h : ByteArray.utf8DecodeChar? (List.toByteArray [0xFF, 10]) 0 = none := by decide +kernel
    split
    · split
      · rfl
      · rename_i h'; rw [h] at h'; cases h'
    · rename_i h'; exact absurd (by decide) h'
  simp [pyDecode, this]
example (es : List PipeEv) := C57_fails_decode "p".toList [0xFF] [0x6F, 10] _ (by decide) bad_line.choose_spec es

end Ex

end Verif
