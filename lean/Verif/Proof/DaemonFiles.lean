import Verif.Proof.Daemon
/-!
# Invariants about the open files around a daemon
-/
namespace Verif

def BootPc.own : BootPc → Bool
  | .open_ | .dup _ _ | .serving => true
  | _ => false

/-- Lines: a daemon's line is named after it, and before it serves nobody else is of its line. -/
structure UxSt.InvL (s : UxSt) : Prop where
  bln : ∀ q Q f, s.procs q = some Q → Q.line = some f → f < s.next
  lin : ∀ q Q, s.procs q = some Q → Q.pc.own = true → Q.line = some q
  lin1 : ∀ p P q Q, s.procs p = some P → P.pc.mid = true → s.procs q = some Q → Q.line = some p → q = p

/-- An entry after an event is an old one, a new daemon, or a child of a process that is not just becoming a daemon. -/
def UxSt.LSub (s s' : UxSt) : Prop := s.next ≤ s'.next ∧ ∀ q Q', s'.procs q = some Q' →
  (∃ Q0, s.procs q = some Q0 ∧ Q'.line = Q0.line ∧ (Q'.pc.own = true → Q0.pc.own = true) ∧ (Q'.pc.mid = true → Q0.pc.mid = true)) ∨
  (s.next ≤ q ∧ q < s'.next ∧ (Q'.line = some q ∨ (Q'.pc.own = false ∧ ∃ p P, s.procs p = some P ∧ Q'.line = P.line ∧ P.pc.mid = false)))

theorem own_of_mid {c : BootPc} (h : c.mid = true) : c.own = true := by cases c <;> simp_all [BootPc.mid, BootPc.own]

theorem LSub.invL {s s' : UxSt} (hg : s.InvG) (h : s.InvL) (r : s.LSub s') : s'.InvL where
  bln q Q f e hf := by
    rcases r.2 q Q e with ⟨Q0, e0, hl, _⟩ | ⟨h1, h2, hl | ⟨_, p, P, e0, hl, _⟩⟩
    · exact Nat.lt_of_lt_of_le (h.bln q Q0 f e0 (by rw [← hl, hf])) r.1
    · rw [hl] at hf; cases hf; exact h2
    · exact Nat.lt_of_lt_of_le (h.bln p P f e0 (by rw [← hl, hf])) r.1
  lin q Q e ho := by
    rcases r.2 q Q e with ⟨Q0, e0, hl, h2, _⟩ | ⟨h1, h2, hl | ⟨h3, _⟩⟩
    · rw [hl]; exact h.lin q Q0 e0 (h2 ho)
    · exact hl
    · simp [h3] at ho
  lin1 p P q Q e hm e' hq := by
    rcases r.2 p P e with ⟨P0, e0, hl, _, h3⟩ | ⟨h1, h2, _⟩
    · have hb := (hg.bnd p P0 e0).1
      rcases r.2 q Q e' with ⟨Q0, e0', hl', _⟩ | ⟨h1', h2', hl' | ⟨_, p1, P1, e1, hl', h4⟩⟩
      · exact h.lin1 p P0 q Q0 e0 (h3 hm) e0' (by rw [← hl', hq])
      · rw [hl'] at hq; cases hq; rfl
      · have := h.lin1 p P0 p1 P1 e0 (h3 hm) e1 (by rw [← hl', hq])
        subst this
        rw [e0] at e1; cases e1
        rw [h3 hm] at h4; cases h4
    · rcases r.2 q Q e' with ⟨Q0, e0', hl', _⟩ | ⟨h1', h2', hl' | ⟨_, p1, P1, e1, hl', h4⟩⟩
      · have := h.bln q Q0 p e0' (by rw [← hl', hq]); omega
      · rw [hl'] at hq; cases hq; rfl
      · have := h.bln p1 P1 p e1 (by rw [← hl', hq]); omega

/-- The standard files are open, no others are. -/
def UxProc.Low (Q : UxProc) : Prop := (∀ x, 3 ≤ x → Q.fds x = none) ∧ ∀ x, x < 3 → (Q.fds x).isSome = true

/-- Open files: programs of different lines share none, and a process on its way to a daemon shares none with other programs. -/
structure UxSt.InvS (s : UxSt) : Prop where
  bfd : ∀ q Q x d, s.procs q = some Q → Q.fds x = some d → d < s.files
  zfd : ∀ q Q x, s.procs q = some Q → Q.live = false → Q.fds x = none
  low : ∀ q Q, s.procs q = some Q → Q.pc.early = true → Q.live = true → Q.Low
  dup : ∀ p P f k, s.procs p = some P → P.pc = .dup f k → P.live = true → f = 3 ∧ k ≤ 2 ∧ ∃ D, P.fds 3 = some D ∧ (∀ x d, P.fds x = some d → d = D ∨ (k ≤ x ∧ x ≤ 2)) ∧ ((∀ x, x < k → P.fds x = some D) ∧ ∀ x, 3 < x → P.fds x = none) ∧
    ∀ q Q y, s.procs q = some Q → Q.fds y = some D → q = p
  share : ∀ p P q Q x y d, s.procs p = some P → s.procs q = some Q → P.pc.free = true → P.fds x = some d → Q.fds y = some d → Q.pc.free = true ∧ Q.line = P.line

/-- Every open file after an event was open before, in the same process or in one that is not becoming a daemon; or it is new and open in one process only. -/
structure UxSt.SSub (s s' : UxSt) (a : Nat) : Prop where
  files : s.files ≤ s'.files
  ent : ∀ q Q' x d, s'.procs q = some Q' → Q'.fds x = some d → (d = s.files ∧ s.files < s'.files ∧ q = a) ∨
    ∃ q0 Q0 x0, s.procs q0 = some Q0 ∧ Q0.fds x0 = some d ∧ Q'.pc.free = Q0.pc.free ∧ (Q'.pc.free = true → Q'.line = Q0.line) ∧ (q = q0 ∨ Q0.pc.mid = false)
  zfd : ∀ q Q' x, s'.procs q = some Q' → Q'.live = false → Q'.fds x = none
  low : ∀ q Q', s'.procs q = some Q' → Q'.pc.early = true → Q'.live = true → Q'.Low
  dups : ∀ q Q' f k, s'.procs q = some Q' → Q'.pc = .dup f k → Q'.live = true → ∃ Q0, s.procs q = some Q0 ∧ Q0.pc = .dup f k ∧ Q0.live = true ∧ Q0.fds = Q'.fds

theorem UxSt.SSub.invS {s s' : UxSt} {a} (h : s.InvS) (r : s.SSub s' a) : s'.InvS where
  bfd q Q x d e hd := by
    have := r.files
    rcases r.ent q Q x d e hd with ⟨h1, h2, _⟩ | ⟨q0, Q0, x0, e0, h1, _⟩
    · omega
    · have := h.bfd q0 Q0 x0 d e0 h1; omega
  zfd := r.zfd
  low := r.low
  dup p P f k e hp hl := by
    obtain ⟨P0, e0, hp0, hl0, hfd⟩ := r.dups p P f k e hp hl
    obtain ⟨h1, h2, D, h3, h4, h4', h5⟩ := h.dup p P0 f k e0 hp0 hl0
    rw [← hfd]
    refine ⟨h1, h2, D, h3, h4, h4', fun q Q y e1 hy => ?_⟩
    have hD := h.bfd p P0 3 D e0 h3
    rcases r.ent q Q y D e1 hy with ⟨h6, _⟩ | ⟨q0, Q0, x0, e2, h6, _, _, h7⟩
    · omega
    · have hq := h5 q0 Q0 x0 e2 h6
      subst hq
      rcases h7 with h7 | h7
      · exact h7
      · rw [e0] at e2; cases e2
        simp [hp0, BootPc.mid] at h7
  share p P q Q x y d e e' hf hx hy := by
    rcases r.ent p P x d e hx with ⟨h1, h2, h3⟩ | ⟨p0, P0, x0, e0, h1, h2, h3, _⟩ <;> rcases r.ent q Q y d e' hy with ⟨k1, k2, k3⟩ | ⟨q0, Q0, y0, i0, k1, k2, k3, _⟩
    · subst h3 k3
      rw [e] at e'; cases e'
      exact ⟨hf, rfl⟩
    · have := h.bfd q0 Q0 y0 d i0 k1; omega
    · have := h.bfd p0 P0 x0 d e0 h1; omega
    · obtain ⟨m1, m2⟩ := h.share p0 P0 q0 Q0 x0 y0 d e0 i0 (by rw [← h2, hf]) h1 k1
      have hq : Q.pc.free = true := by rw [k2, m1]
      exact ⟨hq, by rw [k3 hq, h3 hf, m2]⟩

structure UxSt.Files (s : UxSt) : Prop where
  l : s.InvL
  s : s.InvS

/-- One process changes, without new files coming from elsewhere. -/
theorem files_change {s s' : UxSt} (hg : s.InvG) (h : s.Files) {p P} (hp : s.procs p = some P) (hl : P.live = true) (P' : UxProc)
    (hs : ∀ q, s'.procs q = if q = p then some P' else s.procs q) (hn : s'.next = s.next) (hf : s.files ≤ s'.files)
    (hfd : ∀ x d, P'.fds x = some d → (d = s.files ∧ s.files < s'.files) ∨ ∃ y, P.fds y = some d)
    (hline : P'.line = P.line) (hlv : P'.live = true) (hfree : P'.pc.free = P.pc.free) (how : P'.pc.own = true → P.pc.own = true) (hm : P'.pc.mid = true → P.pc.mid = true)
    (hlow : P'.pc.early = true → P'.Low) (hdup : ∀ f k, P'.pc ≠ .dup f k) : s'.Files := by
  have cs : ∀ q Q, s'.procs q = some Q → (q = p ∧ Q = P') ∨ (q ≠ p ∧ s.procs q = some Q) := by
    intro q Q e
    rw [hs] at e
    split at e
    · rename_i hq; exact .inl ⟨hq, by simpa using e.symm⟩
    · rename_i hq; exact .inr ⟨hq, e⟩
  refine ⟨LSub.invL hg h.l ⟨by omega, fun q Q e => ?_⟩, UxSt.SSub.invS (a := p) h.s ⟨hf, fun q Q x d e hd => ?_, fun q Q x e hz => ?_, fun q Q e h1 h2 => ?_, fun q Q f k e h1 h2 => ?_⟩⟩
  · rcases cs q Q e with ⟨rfl, rfl⟩ | ⟨_, e⟩
    · exact .inl ⟨P, hp, hline, how, hm⟩
    · exact .inl ⟨Q, e, rfl, id, id⟩
  · rcases cs q Q e with ⟨rfl, rfl⟩ | ⟨_, e⟩
    · rcases hfd x d hd with ⟨h1, h2⟩ | ⟨y, hy⟩
      · exact .inl ⟨h1, h2, rfl⟩
      · exact .inr ⟨_, P, y, hp, hy, hfree, fun _ => hline, .inl rfl⟩
    · exact .inr ⟨q, Q, x, e, hd, rfl, fun _ => rfl, .inl rfl⟩
  · rcases cs q Q e with ⟨rfl, rfl⟩ | ⟨_, e⟩
    · rw [hlv] at hz; cases hz
    · exact h.s.zfd q Q x e hz
  · rcases cs q Q e with ⟨rfl, rfl⟩ | ⟨_, e⟩
    · exact hlow h1
    · exact h.s.low q Q e h1 h2
  · rcases cs q Q e with ⟨rfl, rfl⟩ | ⟨_, e⟩
    · exact absurd h1 (hdup f k)
    · exact ⟨Q, e, h1, h2, rfl⟩

/-- A process is born; the caller may go on to another line of the bootstrap. -/
theorem files_birth {s s' : UxSt} (hg : s.InvG) (h : s.Files) {p P} (hp : s.procs p = some P) (hl : P.live = true) (pc : BootPc) (C : UxProc)
    (hs : ∀ q, s'.procs q = if q = s.next then some C else if q = p then some { P with pc := pc } else s.procs q) (hn : s'.next = s.next + 1) (hf : s.files ≤ s'.files)
    (hfd : ∀ x d, C.fds x = some d → (d = s.files ∧ s.files < s'.files) ∨ ∃ y, P.fds y = some d ∧ C.pc.free = P.pc.free)
    (hlv : C.live = true) (hfree : pc.free = P.pc.free) (hpm : P.pc.mid = false) (how : pc.own = true → P.pc.own = true) (hm : pc.mid = false)
    (hlow : pc.early = true → P.Low) (hlow' : C.pc.early = true → C.Low) (hdup' : ∀ f k, C.pc ≠ .dup f k)
    (hline : C.pc.free = true → C.line = P.line) (hC : C.line = some s.next ∨ (C.pc.own = false ∧ C.line = P.line)) : s'.Files := by
  have bp := (hg.bnd p P hp).1
  have cs : ∀ q Q, s'.procs q = some Q → (q = s.next ∧ Q = C) ∨ (q = p ∧ Q = { P with pc := pc }) ∨ (q ≠ p ∧ s.procs q = some Q) := by
    intro q Q e
    rw [hs] at e
    split at e
    · rename_i hq; exact .inl ⟨hq, by simpa using e.symm⟩
    · split at e
      · rename_i hq; exact .inr (.inl ⟨hq, by simpa using e.symm⟩)
      · rename_i hq; exact .inr (.inr ⟨hq, e⟩)
  refine ⟨LSub.invL hg h.l ⟨by omega, fun q Q e => ?_⟩, UxSt.SSub.invS (a := s.next) h.s ⟨hf, fun q Q x d e hd => ?_, fun q Q x e hz => ?_, fun q Q e h1 h2 => ?_, fun q Q f k e h1 h2 => ?_⟩⟩
  · rcases cs q Q e with ⟨hq, rfl⟩ | ⟨rfl, rfl⟩ | ⟨_, e⟩
    · refine .inr ⟨by omega, by omega, ?_⟩
      rcases hC with hC | ⟨h1, h2⟩
      · exact .inl (by rw [hC, hq])
      · exact .inr ⟨h1, p, P, hp, h2, hpm⟩
    · exact .inl ⟨P, hp, rfl, how, fun hh => by simp [hm] at hh⟩
    · exact .inl ⟨Q, e, rfl, id, id⟩
  · rcases cs q Q e with ⟨hq, rfl⟩ | ⟨rfl, rfl⟩ | ⟨_, e⟩
    · rcases hfd x d hd with ⟨h1, h2⟩ | ⟨y, hy, h3⟩
      · exact .inl ⟨h1, h2, hq⟩
      · exact .inr ⟨p, P, y, hp, hy, h3, hline, .inr hpm⟩
    · exact .inr ⟨_, P, x, hp, hd, hfree, fun _ => rfl, .inl rfl⟩
    · exact .inr ⟨q, Q, x, e, hd, rfl, fun _ => rfl, .inl rfl⟩
  · rcases cs q Q e with ⟨hq, rfl⟩ | ⟨rfl, rfl⟩ | ⟨_, e⟩
    · rw [hlv] at hz; cases hz
    · simp [hl] at hz
    · exact h.s.zfd q Q x e hz
  · rcases cs q Q e with ⟨hq, rfl⟩ | ⟨rfl, rfl⟩ | ⟨_, e⟩
    · exact hlow' h1
    · exact hlow h1
    · exact h.s.low q Q e h1 h2
  · rcases cs q Q e with ⟨hq, rfl⟩ | ⟨rfl, rfl⟩ | ⟨_, e⟩
    · exact absurd h1 (hdup' f k)
    · simp only at h1
      simp [h1, BootPc.mid] at hm
    · exact ⟨Q, e, h1, h2, rfl⟩

/-- Entries vanish, or lose their files, or change in ways that do not concern files. -/
theorem files_less {s s' : UxSt} (hg : s.InvG) (h : s.Files) (hn : s.next ≤ s'.next) (hf : s'.files = s.files)
    (cs : ∀ q Q', s'.procs q = some Q' → ∃ Q, s.procs q = some Q ∧ Q'.pc = Q.pc ∧ Q'.line = Q.line ∧
      ((Q'.live = Q.live ∧ Q'.fds = Q.fds) ∨ (Q'.live = false ∧ ∀ x, Q'.fds x = none))) : s'.Files := by
  refine ⟨LSub.invL hg h.l ⟨hn, fun q Q e => ?_⟩, UxSt.SSub.invS (a := 0) h.s ⟨by omega, fun q Q x d e hd => ?_, fun q Q x e hz => ?_, fun q Q e h1 h2 => ?_, fun q Q f k e h1 h2 => ?_⟩⟩
  · obtain ⟨Q0, e0, pc, ln, _⟩ := cs q Q e
    exact .inl ⟨Q0, e0, ln, by rw [pc]; exact id, by rw [pc]; exact id⟩
  · obtain ⟨Q0, e0, pc, ln, ⟨l, fd⟩ | ⟨_, fd⟩⟩ := cs q Q e
    · exact .inr ⟨q, Q0, x, e0, by rw [← fd]; exact hd, by rw [pc], fun _ => ln, .inl rfl⟩
    · rw [fd] at hd; cases hd
  · obtain ⟨Q0, e0, pc, ln, ⟨l, fd⟩ | ⟨_, fd⟩⟩ := cs q Q e
    · rw [fd]; exact h.s.zfd q Q0 x e0 (by rw [← l]; exact hz)
    · exact fd x
  · obtain ⟨Q0, e0, pc, ln, ⟨l, fd⟩ | ⟨l, fd⟩⟩ := cs q Q e
    · have := h.s.low q Q0 e0 (by rw [← pc]; exact h1) (by rw [← l]; exact h2)
      unfold UxProc.Low at *
      rw [fd]; exact this
    · rw [l] at h2; cases h2
  · obtain ⟨Q0, e0, pc, ln, ⟨l, fd⟩ | ⟨l, fd⟩⟩ := cs q Q e
    · exact ⟨Q0, e0, by rw [← pc]; exact h1, by rw [← l]; exact h2, fd.symm⟩
    · rw [l] at h2; cases h2

theorem files_ends {s : UxSt} (hg : s.InvG) (h : s.Files) {p P} (hp : s.procs p = some P) : (s.ends p P).1.Files := by
  obtain ⟨hn, _, hf, _⟩ := ends_next s p P
  refine files_less hg h (by omega) hf fun q Q' e => ?_
  rcases ends_cases e with ⟨rfl, rfl, _⟩ | ⟨h1, Q, h2, ⟨_, rfl⟩ | ⟨_, h4, rfl⟩⟩
  · exact ⟨P, hp, rfl, rfl, .inr ⟨rfl, fun _ => rfl⟩⟩
  · exact ⟨Q', h2, rfl, rfl, .inl ⟨rfl, rfl⟩⟩
  · exact ⟨Q, h2, rfl, rfl, .inl ⟨rfl, rfl⟩⟩

theorem files_open {s : UxSt} (hg : s.InvG) (h : s.Files) {p P} (hp : s.procs p = some P) (hl : P.live = true) (hpc : P.pc = .open_) : (s.bootStep p P).1.Files := by
  have low := h.s.low p P hp (by simp [hpc, BootPc.early]) hl
  have hf := low_free P.fds low.2
  have e1 : (s.bootStep p P).1 = { s.put p { P with pc := .dup 3 0, fds := fun x => if x = 3 then some s.files else P.fds x } with files := s.files + 1 } := by
    simp [UxSt.bootStep, hpc, hf]
  rw [e1]
  have cs : ∀ q Q, ({ s.put p { P with pc := .dup 3 0, fds := fun x => if x = 3 then some s.files else P.fds x } with files := s.files + 1 } : UxSt).procs q = some Q →
      (q = p ∧ Q = { P with pc := .dup 3 0, fds := fun x => if x = 3 then some s.files else P.fds x }) ∨ (q ≠ p ∧ s.procs q = some Q) := by
    intro q Q e
    simp only [put_procs] at e
    split at e
    · rename_i hq; exact .inl ⟨hq, by simpa using e.symm⟩
    · rename_i hq; exact .inr ⟨hq, e⟩
  have uniq : ∀ q Q y, ({ s.put p { P with pc := .dup 3 0, fds := fun x => if x = 3 then some s.files else P.fds x } with files := s.files + 1 } : UxSt).procs q = some Q →
      Q.fds y = some s.files → q = p := by
    intro q Q y e hy
    rcases cs q Q e with ⟨h1, _⟩ | ⟨_, e⟩
    · exact h1
    · have := h.s.bfd q Q y _ e hy; omega
  refine ⟨LSub.invL hg h.l ⟨Nat.le_refl _, fun q Q e => ?_⟩, ⟨fun q Q x d e hd => ?_, fun q Q x e hz => ?_, fun q Q e k1 k2 => ?_, fun q Q f k e k1 k2 => ?_, fun q Q t T x y d e e' hff hx hy => ?_⟩⟩
  · rcases cs q Q e with ⟨rfl, rfl⟩ | ⟨_, e⟩
    · exact .inl ⟨P, hp, rfl, fun _ => by simp [hpc, BootPc.own], fun _ => by simp [hpc, BootPc.mid]⟩
    · exact .inl ⟨Q, e, rfl, id, id⟩
  · show d < s.files + 1
    rcases cs q Q e with ⟨rfl, rfl⟩ | ⟨_, e⟩
    · simp only at hd
      split at hd
      · cases hd; omega
      · have := h.s.bfd _ P x d hp hd; omega
    · have := h.s.bfd q Q x d e hd; omega
  · rcases cs q Q e with ⟨rfl, rfl⟩ | ⟨_, e⟩
    · simp [hl] at hz
    · exact h.s.zfd q Q x e hz
  · rcases cs q Q e with ⟨rfl, rfl⟩ | ⟨_, e⟩
    · simp [BootPc.early] at k1
    · exact h.s.low q Q e k1 k2
  · rcases cs q Q e with ⟨rfl, rfl⟩ | ⟨_, e0⟩
    · simp only [BootPc.dup.injEq] at k1
      refine ⟨k1.1.symm, by omega, s.files, by simp, fun x d hd => ?_, ⟨fun x hx => by omega, fun x hx => ?_⟩, uniq⟩
      · simp only at hd
        split at hd
        · cases hd; exact .inl rfl
        · right
          have : x < 3 := by
            apply Classical.byContradiction
            intro hx
            rw [low.1 x (by omega)] at hd; cases hd
          omega
      · simp only
        rw [if_neg (by omega)]
        exact low.1 x (by omega)
    · obtain ⟨m1, m2, D, m3, m4, m4', m5⟩ := h.s.dup q Q f k e0 k1 k2
      refine ⟨m1, m2, D, m3, m4, m4', fun t T y e' hy => ?_⟩
      rcases cs t T e' with ⟨rfl, rfl⟩ | ⟨_, e'⟩
      · simp only at hy
        split at hy
        · cases hy
          have := h.s.bfd q Q 3 _ e0 m3; omega
        · exact m5 _ P y hp hy
      · exact m5 t T y e' hy
  · rcases cs q Q e with ⟨rfl, rfl⟩ | ⟨hne, e0⟩
    · simp [BootPc.free] at hff
    · rcases cs t T e' with ⟨rfl, rfl⟩ | ⟨_, e'⟩
      · simp only at hy
        split at hy
        · cases hy
          exact absurd (uniq q Q x e hx) hne
        · have := (h.s.share q Q _ P x y d e0 hp hff hx hy).1
          simp [hpc, BootPc.free] at this
      · exact h.s.share q Q t T x y d e0 e' hff hx hy

theorem files_dup {s : UxSt} (hg : s.InvG) (h : s.Files) {p P f k} (hp : s.procs p = some P) (hl : P.live = true) (hpc : P.pc = .dup f k) : (s.bootStep p P).1.Files := by
  obtain ⟨rfl, hk, D, m3, m4, m4', m5⟩ := h.s.dup p P f k hp hpc hl
  have e1 : (s.bootStep p P).1 = s.put p { P with pc := if k < 2 then .dup 3 (k + 1) else .serving, fds := fun x => if x = k then P.fds 3 else P.fds x } := by
    simp [UxSt.bootStep, hpc]
  rw [e1]
  have cs : ∀ q Q, (s.put p { P with pc := if k < 2 then .dup 3 (k + 1) else .serving, fds := fun x => if x = k then P.fds 3 else P.fds x }).procs q = some Q →
      (q = p ∧ Q = { P with pc := if k < 2 then .dup 3 (k + 1) else .serving, fds := fun x => if x = k then P.fds 3 else P.fds x }) ∨ (q ≠ p ∧ s.procs q = some Q) := by
    intro q Q e
    simp only [put_procs] at e
    split at e
    · rename_i hq; exact .inl ⟨hq, by simpa using e.symm⟩
    · rename_i hq; exact .inr ⟨hq, e⟩
  have fd' : ∀ x d, (if x = k then P.fds 3 else P.fds x) = some d → (∃ y, P.fds y = some d) ∧ (d = D ∨ (k + 1 ≤ x ∧ x ≤ 2)) := by
    intro x d hd
    split at hd
    · rename_i hx; exact ⟨⟨3, hd⟩, .inl (by rw [m3] at hd; cases hd; rfl)⟩
    · refine ⟨⟨x, hd⟩, ?_⟩
      rcases m4 x d hd with hh | hh
      · exact .inl hh
      · exact .inr (by omega)
  have uniq : ∀ q Q y, (s.put p { P with pc := if k < 2 then .dup 3 (k + 1) else .serving, fds := fun x => if x = k then P.fds 3 else P.fds x }).procs q = some Q →
      Q.fds y = some D → q = p := by
    intro q Q y e hy
    rcases cs q Q e with ⟨h1, _⟩ | ⟨_, e⟩
    · exact h1
    · exact m5 q Q y e hy
  refine ⟨LSub.invL hg h.l ⟨Nat.le_refl _, fun q Q e => ?_⟩, ⟨fun q Q x d e hd => ?_, fun q Q x e hz => ?_, fun q Q e k1 k2 => ?_, fun q Q f' k' e k1 k2 => ?_, fun q Q t T x y d e e' hff hx hy => ?_⟩⟩
  · rcases cs q Q e with ⟨rfl, rfl⟩ | ⟨_, e⟩
    · exact .inl ⟨P, hp, rfl, fun _ => by simp [hpc, BootPc.own], fun _ => by simp [hpc, BootPc.mid]⟩
    · exact .inl ⟨Q, e, rfl, id, id⟩
  · show d < s.files
    rcases cs q Q e with ⟨rfl, rfl⟩ | ⟨_, e⟩
    · obtain ⟨⟨y, hy⟩, _⟩ := fd' x d hd
      exact h.s.bfd _ P y d hp hy
    · exact h.s.bfd q Q x d e hd
  · rcases cs q Q e with ⟨rfl, rfl⟩ | ⟨_, e⟩
    · simp [hl] at hz
    · exact h.s.zfd q Q x e hz
  · rcases cs q Q e with ⟨rfl, rfl⟩ | ⟨_, e⟩
    · by_cases hk2 : k < 2 <;> simp [hk2, BootPc.early] at k1
    · exact h.s.low q Q e k1 k2
  · rcases cs q Q e with ⟨rfl, rfl⟩ | ⟨_, e0⟩
    · by_cases hk2 : k < 2
      · simp only [hk2, if_true, BootPc.dup.injEq] at k1
        refine ⟨k1.1.symm, by omega, D, ?_, fun x d hd => ?_, ⟨fun x hx => ?_, fun x hx => ?_⟩, uniq⟩
        · simp only
          rw [if_neg (by omega)]; exact m3
        · rw [← k1.2]
          exact (fd' x d hd).2
        · simp only
          split
          · exact m3
          · exact m4'.1 x (by omega)
        · simp only
          rw [if_neg (by omega)]
          exact m4'.2 x hx
      · simp [hk2] at k1
    · obtain ⟨i1, i2, D', i3, i4, i4', i5⟩ := h.s.dup q Q f' k' e0 k1 k2
      refine ⟨i1, i2, D', i3, i4, i4', fun t T y e' hy => ?_⟩
      rcases cs t T e' with ⟨rfl, rfl⟩ | ⟨_, e'⟩
      · obtain ⟨⟨z, hz⟩, _⟩ := fd' y D' hy
        exact i5 _ P z hp hz
      · exact i5 t T y e' hy
  · rcases cs q Q e with ⟨rfl, rfl⟩ | ⟨hne, e0⟩
    · have hk2 : ¬ k < 2 := by
        intro hk2
        simp [hk2, BootPc.free] at hff
      have hd : d = D := by
        rcases (fd' x d hx).2 with hh | hh
        · exact hh
        · omega
      subst hd
      have ht := uniq t T y e' hy
      subst ht
      rw [e] at e'
      cases e'
      exact ⟨hff, rfl⟩
    · rcases cs t T e' with ⟨rfl, rfl⟩ | ⟨_, e'⟩
      · obtain ⟨⟨z, hz⟩, _⟩ := fd' y d hy
        have := (h.s.share q Q _ P x z d e0 hp hff hx hz).1
        simp [hpc, BootPc.free] at this
      · exact h.s.share q Q t T x y d e0 e' hff hx hy

theorem files_setsid {s s' : UxSt} (hg : s.InvG) (h : s.Files) {p P pc} (hp : s.procs p = some P) (hl : P.live = true)
    (hpc : (P.pc.free = true ∧ pc = P.pc) ∨ (P.pc = .setsid ∧ pc = .fork2)) (e : s.setsid p P pc = some s') : s'.Files := by
  obtain ⟨_, rfl⟩ := setsid_some hg e
  refine files_change hg h hp hl { P with group := p, session := p, pc := pc } (fun q => rfl) rfl (Nat.le_refl _) (fun x d hd => .inr ⟨x, hd⟩) rfl hl ?_ ?_ ?_ ?_ ?_
  all_goals rcases hpc with ⟨h1, h2⟩ | ⟨h1, h2⟩
  all_goals first | (rw [free_eq] at h1; rcases h1 with h1 | h1) | skip
  all_goals first
    | (simp [h1, h2, BootPc.free, BootPc.own, BootPc.mid, BootPc.early]; done)
    | (intro _; exact h.s.low p P hp (by simp [h1, BootPc.early]) hl)

theorem files_boot {s : UxSt} (hg : s.InvG) (h : s.Files) {p P} (hp : s.procs p = some P) (hl : P.live = true) : (s.bootStep p P).1.Files := by
  cases hpc : P.pc with
  | user => simp only [UxSt.bootStep, hpc]; exact h
  | init => simp only [UxSt.bootStep, hpc]; exact h
  | serving => simp only [UxSt.bootStep, hpc]; exact h
  | start =>
    have low := h.s.low p P hp (by simp [hpc, BootPc.early]) hl
    simp only [UxSt.bootStep, hpc]
    exact files_birth hg h hp hl .exit1 { P with parent := p, pc := .setsid, line := P.line } (fun q => by rw [fork_procs]) rfl (Nat.le_refl _)
      (fun x d hd => .inr ⟨x, hd, by simp [hpc, BootPc.free]⟩) hl (by simp [hpc, BootPc.free]) (by simp [hpc, BootPc.mid]) (by simp [BootPc.own]) rfl (fun _ => low) (fun _ => low)
      (by simp) (by simp) (.inr ⟨rfl, rfl⟩)
  | exit1 => simp only [UxSt.bootStep, hpc]; exact files_ends hg h hp
  | exit2 => simp only [UxSt.bootStep, hpc]; exact files_ends hg h hp
  | setsid =>
    simp only [UxSt.bootStep, hpc]
    split
    · rename_i s' hs; exact files_setsid hg h hp hl (.inr ⟨hpc, rfl⟩) hs
    · exact files_ends hg h hp
  | fork2 =>
    have low := h.s.low p P hp (by simp [hpc, BootPc.early]) hl
    simp only [UxSt.bootStep, hpc]
    exact files_birth hg h hp hl .exit2 { P with parent := p, pc := .open_, line := some s.next } (fun q => by rw [fork_procs]) rfl (Nat.le_refl _)
      (fun x d hd => .inr ⟨x, hd, by simp [hpc, BootPc.free]⟩) hl (by simp [hpc, BootPc.free]) (by simp [hpc, BootPc.mid]) (by simp [BootPc.own]) rfl (fun _ => low) (fun _ => low)
      (by simp) (by simp [BootPc.free]) (.inl rfl)
  | open_ => exact files_open hg h hp hl hpc
  | dup f k => exact files_dup hg h hp hl hpc

theorem files_fds {s s' : UxSt} (hg : s.InvG) (h : s.Files) {p P} (hp : s.procs p = some P) (hl : P.live = true) (hf : P.pc.free = true) (fds : Nat → Option Nat)
    (hs : ∀ q, s'.procs q = if q = p then some { P with fds := fds } else s.procs q) (hn : s'.next = s.next) (hle : s.files ≤ s'.files)
    (hfd : ∀ x d, fds x = some d → (d = s.files ∧ s.files < s'.files) ∨ ∃ y, P.fds y = some d) : s'.Files := by
  rw [free_eq] at hf
  refine files_change hg h hp hl { P with fds := fds } hs hn hle hfd rfl hl rfl id id ?_ ?_ <;> rcases hf with e | e <;> simp [e, BootPc.early]

theorem files_step {s : UxSt} (ho : s.Ok) (h : s.Files) (e : UxEv) : (s.step e).1.Files := by
  have hg := ho.g
  have opens : ∀ p P x, s.caller p = some P → ({ s.put p { P with fds := fun y => if y = x then some s.files else P.fds y } with files := s.files + 1 } : UxSt).Files := by
    intro p P x hc
    obtain ⟨hp, hl, hf⟩ := caller_some hc
    refine files_fds hg h hp hl hf _ (fun q => rfl) rfl (Nat.le_succ _) fun z d hd => ?_
    split at hd
    · cases hd; exact .inl ⟨rfl, Nat.lt_succ_self _⟩
    · exact .inr ⟨z, hd⟩
  cases e with
  | fork p =>
    simp only [UxSt.step]
    split
    · rename_i P hc
      obtain ⟨hp, hl, hf⟩ := caller_some hc
      have hf' := hf
      rw [free_eq] at hf
      refine files_birth hg h hp hl P.pc { P with parent := p, pc := .user, line := P.line } (fun q => by rw [fork_procs]) rfl (Nat.le_refl _)
        (fun x d hd => .inr ⟨x, hd, by rw [hf']; rfl⟩) hl rfl ?_ id ?_ ?_ ?_ ?_ (fun _ => rfl) (.inr ⟨rfl, rfl⟩) <;> rcases hf with e | e <;> simp [e, BootPc.mid, BootPc.early]
    · exact h
  | setsid p =>
    simp only [UxSt.step]
    split
    · rename_i P hc
      obtain ⟨hp, hl, hf⟩ := caller_some hc
      split
      · rename_i s' hs
        exact files_setsid hg h hp hl (.inl ⟨hf, rfl⟩) hs
      · exact h
    · exact h
  | setpgid p q g =>
    simp only [UxSt.step]
    split
    · rename_i P Q hc hq
      split
      · refine files_less hg h (Nat.le_refl _) rfl fun t T e => ?_
        rw [put_procs] at e
        split at e
        · rename_i hh; subst hh; cases e; exact ⟨Q, hq, rfl, rfl, .inl ⟨rfl, rfl⟩⟩
        · exact ⟨T, e, rfl, rfl, .inl ⟨rfl, rfl⟩⟩
      · exact h
    · exact h
  | openTty p x n =>
    simp only [UxSt.step]
    split
    · rename_i P hc
      have k := opens p P x hc
      split
      · exact ⟨⟨k.l.bln, k.l.lin, k.l.lin1⟩, ⟨k.s.bfd, k.s.zfd, k.s.low, k.s.dup, k.s.share⟩⟩
      · exact k
    · exact h
  | setFg p g =>
    simp only [UxSt.step]
    split
    · split
      · split
        · exact ⟨⟨h.l.bln, h.l.lin, h.l.lin1⟩, ⟨h.s.bfd, h.s.zfd, h.s.low, h.s.dup, h.s.share⟩⟩
        · exact h
      · exact h
    · exact h
  | opens p x =>
    simp only [UxSt.step]
    split
    · rename_i P hc; exact opens p P x hc
    · exact h
  | dup p x y =>
    simp only [UxSt.step]
    split
    · rename_i P hc
      obtain ⟨hp, hl, hf⟩ := caller_some hc
      refine files_fds hg h hp hl hf _ (fun q => rfl) rfl (Nat.le_refl _) fun z d hd => ?_
      split at hd
      · exact .inr ⟨x, hd⟩
      · exact .inr ⟨z, hd⟩
    · exact h
  | close p x =>
    simp only [UxSt.step]
    split
    · rename_i P hc
      obtain ⟨hp, hl, hf⟩ := caller_some hc
      refine files_fds hg h hp hl hf _ (fun q => rfl) rfl (Nat.le_refl _) fun z d hd => ?_
      split at hd
      · cases hd
      · exact .inr ⟨z, hd⟩
    · exact h
  | ends p =>
    simp only [UxSt.step]
    split
    · rename_i P hp
      split
      · exact files_ends hg h hp
      · exact h
    · exact h
  | wait p q =>
    simp only [UxSt.step]
    split
    · split
      · refine files_less hg h (Nat.le_refl _) rfl fun t T e => ?_
        simp only at e
        split at e
        · cases e
        · exact ⟨T, e, rfl, rfl, .inl ⟨rfl, rfl⟩⟩
      · exact h
    · exact h
  | start p daemon =>
    simp only [UxSt.step]
    split
    · rename_i P hc
      obtain ⟨hp, hl, hf⟩ := caller_some hc
      have hf' := hf
      rw [free_eq] at hf
      refine files_birth hg h hp hl P.pc { P with parent := p, pc := if daemon then .start else .user, fds := startFds P s.files daemon } (fun q => ?_) rfl (Nat.le_succ _)
        (fun x d hd => ?_) hl rfl ?_ id ?_ ?_ ?_ ?_ (fun _ => rfl) (.inr ⟨?_, rfl⟩)
      · simp only [UxSt.birth, put_procs]
        split
        · rfl
        · split
          · rename_i hh; rw [hh, hp]
          · rfl
      · simp only [startFds] at hd
        split at hd
        · split at hd
          · cases hd; exact .inl ⟨rfl, Nat.lt_succ_self _⟩
          · cases hd
        · rename_i hdm
          split at hd
          · cases hd; exact .inl ⟨rfl, Nat.lt_succ_self _⟩
          · split at hd
            · exact .inr ⟨x, hd, by simp only [if_neg hdm]; rw [hf']; rfl⟩
            · cases hd
      · rcases hf with e | e <;> simp [e, BootPc.mid]
      · rcases hf with e | e <;> simp [e, BootPc.mid]
      · rcases hf with e | e <;> simp [e, BootPc.early]
      · cases daemon
        · simp [BootPc.early]
        · intro _
          exact ⟨fun x hx => by simp [startFds]; omega, fun x hx => by simp [startFds, hx]⟩
      · cases daemon <;> simp
      · cases daemon <;> rfl
    · exact h
  | boot p =>
    simp only [UxSt.step]
    split
    · rename_i P hp
      split
      · rename_i hl
        exact files_boot hg h hp hl
      · exact h
    · exact h
  | hangup n => exact h
  | key n => exact h
  | kill q => exact h
  | killGroup g => exact h
end Verif
