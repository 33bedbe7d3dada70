import Verif.Model.Daemon
/-!
# Invariants of the system around a daemon
-/
namespace Verif

/-- Past the first fork of a bootstrap. -/
def BootPc.late : BootPc → Bool
  | .setsid | .fork2 | .exit2 | .open_ | .dup _ _ | .serving => true
  | _ => false

/-- The first fork, or the process that leads the session. -/
def BootPc.early : BootPc → Bool
  | .start | .exit1 | .setsid | .fork2 | .exit2 | .open_ => true
  | _ => false

def BootPc.leads : BootPc → Bool
  | .fork2 | .exit2 => true
  | _ => false

def BootPc.mid : BootPc → Bool
  | .open_ | .dup _ _ => true
  | _ => false

/-- Nothing that happens at a terminal reaches the session: it has no terminal, its leader cannot get one, and no terminal's foreground group is among its groups or may become one. -/
structure UxSt.Quiet (s : UxSt) (σ : Nat) : Prop where
  bound : σ < s.next
  noTty : s.ctty σ = none
  leader : ∀ P, s.procs σ = some P → P.live = true → P.pc.leads = true
  fg : ∀ q Q, s.procs q = some Q → Q.session = σ → ∀ n, s.fg n ≠ q ∧ s.fg n ≠ Q.group

/-- Groups belong to sessions. -/
structure UxSt.InvG (s : UxSt) : Prop where
  bnd : ∀ q Q, s.procs q = some Q → q < s.next ∧ Q.group < s.next ∧ Q.session < s.next
  bfg : ∀ n, s.fg n < s.next
  grp : ∀ p P q Q, s.procs p = some P → s.procs q = some Q → P.group = Q.group → P.session = Q.session
  lead : ∀ q Q G, s.procs q = some Q → s.procs Q.group = some G → G.session = Q.session

/-- Processes on their way to a daemon. -/
structure UxSt.InvB (s : UxSt) : Prop where
  sid : ∀ p P, s.procs p = some P → P.pc = .setsid → (∀ q Q, s.procs q = some Q → Q.group ≠ p ∧ Q.session ≠ p) ∧ ∀ n, s.fg n ≠ p
  ses : ∀ p P, s.procs p = some P → P.pc.leads = true → P.session = p
  quiet : ∀ p P, s.procs p = some P → P.pc.leads = true ∨ P.pc.mid = true → s.Quiet P.session

/-- Parents. -/
structure UxSt.InvR (s : UxSt) : Prop where
  zero : ∃ Z, s.procs 0 = some Z ∧ Z.pc = .init ∧ Z.live = true
  only : ∀ q Q, s.procs q = some Q → Q.pc = .init → q = 0
  self : ∀ q Q, s.procs q = some Q → Q.parent = q → q = 0
  par : ∀ q Q, s.procs q = some Q → ∃ R, s.procs Q.parent = some R ∧ R.live = true ∧ (Q.live = false → R.pc ≠ .init) ∧
    (Q.pc.late = true → R.pc = .init ∨ R.pc = .exit1 ∨ R.pc = .exit2)

/-- An event that changes no group or session, and gives no session a terminal. -/
structure UxSt.Sub (s s' : UxSt) : Prop where
  next : s.next ≤ s'.next
  fg : s'.fg = s.fg
  tty : ∀ σ, s'.ctty σ = s.ctty σ ∨ s'.ctty σ = none
  ent : ∀ q Q', s'.procs q = some Q' → q < s'.next ∧ ∃ q0 Q0, s.procs q0 = some Q0 ∧ Q'.group = Q0.group ∧ Q'.session = Q0.session ∧ (q = q0 ∨ s.next ≤ q)
  live : ∀ q Q', s'.procs q = some Q' → q < s.next → Q'.live = true → ∃ Q0, s.procs q = some Q0 ∧ Q0.live = true ∧ (Q0.pc.leads = true → Q'.pc.leads = true)
  sidc : ∀ q Q', s'.procs q = some Q' → Q'.pc = .setsid → (∃ Q0, s.procs q = some Q0 ∧ Q0.pc = .setsid) ∨ s.next ≤ q
  lds : ∀ q Q', s'.procs q = some Q' → Q'.pc.leads = true → ∃ Q0, s.procs q = some Q0 ∧ Q0.pc.leads = true
  mid : ∀ q Q', s'.procs q = some Q' → Q'.pc.leads = true ∨ Q'.pc.mid = true → ∃ q0 Q0, s.procs q0 = some Q0 ∧ (Q0.pc.leads = true ∨ Q0.pc.mid = true) ∧ Q'.session = Q0.session

theorem UxSt.Sub.invG {s s' : UxSt} (r : s.Sub s') (h : s.InvG) : s'.InvG where
  bnd q Q' e := by
    obtain ⟨b, q0, Q0, e0, g, se, _⟩ := r.ent q Q' e
    have := h.bnd q0 Q0 e0
    have := r.next
    refine ⟨b, ?_, ?_⟩ <;> omega
  bfg n := by rw [r.fg]; exact Nat.lt_of_lt_of_le (h.bfg n) r.next
  grp p P q Q e e' hg := by
    obtain ⟨_, p0, P0, e0, g, se, _⟩ := r.ent p P e
    obtain ⟨_, q0, Q0, e0', g', se', _⟩ := r.ent q Q e'
    rw [se, se']
    exact h.grp p0 P0 q0 Q0 e0 e0' (by rw [← g, ← g', hg])
  lead q Q G e e' := by
    obtain ⟨_, q0, Q0, e0, g, se, _⟩ := r.ent q Q e
    obtain ⟨_, p0, P0, e0', g', se', hh⟩ := r.ent _ G e'
    rw [se, se']
    refine h.lead q0 Q0 P0 e0 ?_
    rcases hh with hh | hh
    · rw [← g, hh]; exact e0'
    · have := (h.bnd q0 Q0 e0).2.1; omega

theorem UxSt.Sub.quiet {s s' : UxSt} (r : s.Sub s') (h : s.InvG) {σ} (hq : s.Quiet σ) : s'.Quiet σ where
  bound := Nat.lt_of_lt_of_le hq.bound r.next
  noTty := by rcases r.tty σ with e | e <;> simp [e, hq.noTty]
  leader P e hl := by
    obtain ⟨Q0, e0, l0, hh⟩ := r.live σ P e hq.bound hl
    exact hh (hq.leader Q0 e0 l0)
  fg q Q e hs n := by
    obtain ⟨_, q0, Q0, e0, g, se, hh⟩ := r.ent q Q e
    have := hq.fg q0 Q0 e0 (by rw [← se, hs]) n
    rw [r.fg, g]
    refine ⟨?_, this.2⟩
    rcases hh with rfl | hh
    · exact this.1
    · have := h.bfg n; omega

theorem UxSt.Sub.invB {s s' : UxSt} (r : s.Sub s') (h : s.InvG) (hb : s.InvB) : s'.InvB where
  sid p P e hp := by
    have key : (∀ q Q, s.procs q = some Q → Q.group ≠ p ∧ Q.session ≠ p) ∧ ∀ n, s.fg n ≠ p := by
      rcases r.sidc p P e hp with ⟨P0, e0, h0⟩ | hh
      · exact hb.sid p P0 e0 h0
      · refine ⟨fun q Q e1 => ?_, fun n => ?_⟩
        · have := h.bnd q Q e1; omega
        · have := h.bfg n; omega
    rw [r.fg]
    refine ⟨fun q Q e1 => ?_, key.2⟩
    obtain ⟨_, q0, Q0, e0, g, se, _⟩ := r.ent q Q e1
    rw [g, se]
    exact key.1 q0 Q0 e0
  ses p P e hp := by
    obtain ⟨P0, e0, h0⟩ := r.lds p P e hp
    obtain ⟨_, q0, Q0, e1, g, se, hh⟩ := r.ent p P e
    have := (h.bnd p P0 e0).1
    have hq : q0 = p := by omega
    subst hq
    rw [e0] at e1
    cases e1
    rw [se]
    exact hb.ses _ _ e0 h0
  quiet p P e hp := by
    obtain ⟨q0, Q0, e0, h0, se⟩ := r.mid p P e hp
    rw [se]
    exact r.quiet h (hb.quiet q0 Q0 e0 h0)

theorem hasGroup_iff (s : UxSt) (h : s.InvG) (g : Nat) (σ : Option Nat) :
    s.hasGroup g σ = true ↔ ∃ q Q, s.procs q = some Q ∧ Q.group = g ∧ ∀ τ, σ = some τ → Q.session = τ := by
  unfold UxSt.hasGroup
  rw [List.any_eq_true]
  constructor
  · rintro ⟨q, _, hq⟩
    cases e : s.procs q with
    | none => simp [e] at hq
    | some Q =>
      refine ⟨q, Q, e, ?_⟩
      cases σ <;> simp_all
  · rintro ⟨q, Q, e, e1, e2⟩
    refine ⟨q, List.mem_range.2 (h.bnd q Q e).1, ?_⟩
    rw [e]
    cases σ <;> simp_all

theorem caller_some {s : UxSt} {p P} (h : s.caller p = some P) : s.procs p = some P ∧ P.live = true ∧ P.pc.free = true := by
  unfold UxSt.caller at h
  split at h
  · split at h <;> simp_all
  · simp at h

theorem free_eq {c : BootPc} : c.free = true ↔ c = .user ∨ c = .serving := by cases c <;> simp [BootPc.free]

/-- Births, and changes of the entry of a process that leave its group, session and parent alone. -/
theorem birth_sub {s s' : UxSt} (h : s.InvG) {p P} (hp : s.procs p = some P) (hl : P.live = true) (P' : UxProc) (C : Option UxProc)
    (hs : ∀ q, s'.procs q = if q = s.next ∧ C.isSome then C else if q = p then some P' else s.procs q) (hn : s'.next = s.next + (if C.isSome then 1 else 0))
    (hf : s'.fg = s.fg) (ht : s'.ctty = s.ctty)
    (g : P'.group = P.group) (se : P'.session = P.session) (hsid : P'.pc = .setsid → P.pc = .setsid) (hld : P'.pc.leads = P.pc.leads) (hmid : P'.pc.mid = true → P.pc.mid = true)
    (hC : ∀ c ∈ C, c.group = P.group ∧ c.session = P.session ∧ c.pc.leads = false ∧ (c.pc.mid = true → P.pc.leads = true)) : s.Sub s' := by
  have cases_ : ∀ q Q', s'.procs q = some Q' → (q = s.next ∧ C = some Q') ∨ (q = p ∧ Q' = P') ∨ (q ≠ p ∧ s.procs q = some Q') := by
    intro q Q' e
    rw [hs] at e
    split at e
    · rename_i hh; exact .inl ⟨hh.1, e⟩
    · split at e
      · rename_i hh; exact .inr (.inl ⟨hh, by simpa using e.symm⟩)
      · rename_i hh; exact .inr (.inr ⟨hh, e⟩)
  have bp := (h.bnd p P hp).1
  constructor
  · omega
  · exact hf
  · intro σ; exact .inl (by rw [ht])
  · intro q Q' e
    rcases cases_ q Q' e with ⟨hq, hc⟩ | ⟨hq, hc⟩ | ⟨hq, hc⟩
    · have := hC Q' hc
      refine ⟨by simp [hn, hq, hc], p, P, hp, this.1, this.2.1, .inr (by omega)⟩
    · subst hq hc
      exact ⟨by omega, _, P, hp, g, se, .inl rfl⟩
    · have := (h.bnd q Q' hc).1
      exact ⟨by omega, q, Q', hc, rfl, rfl, .inl rfl⟩
  · intro q Q' e hb hlv
    rcases cases_ q Q' e with ⟨hq, hc⟩ | ⟨hq, hc⟩ | ⟨hq, hc⟩
    · omega
    · subst hq hc
      exact ⟨P, hp, hl, fun h => by rw [hld]; exact h⟩
    · exact ⟨Q', hc, hlv, id⟩
  · intro q Q' e hh
    rcases cases_ q Q' e with ⟨hq, hc⟩ | ⟨hq, hc⟩ | ⟨hq, hc⟩
    · exact .inr (by omega)
    · subst hq hc
      exact .inl ⟨P, hp, hsid hh⟩
    · exact .inl ⟨Q', hc, hh⟩
  · intro q Q' e hh
    rcases cases_ q Q' e with ⟨hq, hc⟩ | ⟨hq, hc⟩ | ⟨hq, hc⟩
    · have := (hC Q' hc).2.2.1; simp [this] at hh
    · subst hq hc
      exact ⟨P, hp, by rw [← hld]; exact hh⟩
    · exact ⟨Q', hc, hh⟩
  · intro q Q' e hh
    rcases cases_ q Q' e with ⟨hq, hc⟩ | ⟨hq, hc⟩ | ⟨hq, hc⟩
    · have := hC Q' hc
      refine ⟨p, P, hp, ?_, this.2.1⟩
      rcases hh with hh | hh
      · simp [this.2.2.1] at hh
      · exact .inl (this.2.2.2 hh)
    · subst hq hc
      refine ⟨_, P, hp, ?_, se⟩
      rcases hh with hh | hh
      · exact .inl (by rw [← hld]; exact hh)
      · exact .inr (hmid hh)
    · exact ⟨q, Q', hc, hh, rfl⟩

theorem birth_invR {s s' : UxSt} (h : s.InvG) (r : s.InvR) {p P} (hp : s.procs p = some P) (hl : P.live = true) (P' : UxProc) (C : Option UxProc)
    (hs : ∀ q, s'.procs q = if q = s.next ∧ C.isSome then C else if q = p then some P' else s.procs q)
    (hpar : P'.parent = P.parent) (hlv : P'.live = true) (hni : P.pc ≠ .init) (hni' : P'.pc ≠ .init) (hlate : P'.pc.late = true → P.pc.late = true)
    (hex : P.pc = .exit1 ∨ P.pc = .exit2 → P'.pc = .exit1 ∨ P'.pc = .exit2)
    (hC : ∀ c ∈ C, c.parent = p ∧ c.live = true ∧ c.pc ≠ .init ∧ (c.pc.late = true → P'.pc = .exit1 ∨ P'.pc = .exit2)) : s'.InvR := by
  have bp := (h.bnd p P hp).1
  have old : ∀ q Q, s.procs q = some Q → ∃ R, s'.procs q = some R ∧ (R.pc = Q.pc ∧ R.live = Q.live ∨ q = p ∧ R = P') := by
    intro q Q e
    have hb := (h.bnd q Q e).1
    rw [hs, if_neg (by rintro ⟨h1, _⟩; omega)]
    by_cases hq : q = p
    · rw [if_pos hq]; exact ⟨P', rfl, .inr ⟨hq, rfl⟩⟩
    · rw [if_neg hq]; exact ⟨Q, e, .inl ⟨rfl, rfl⟩⟩
  have lift : ∀ q (Q : UxProc), (∃ R, s.procs q = some R ∧ R.live = true ∧ (Q.live = false → R.pc ≠ .init) ∧ (Q.pc.late = true → R.pc = .init ∨ R.pc = .exit1 ∨ R.pc = .exit2)) →
      ∃ R, s'.procs q = some R ∧ R.live = true ∧ (Q.live = false → R.pc ≠ .init) ∧ (Q.pc.late = true → R.pc = .init ∨ R.pc = .exit1 ∨ R.pc = .exit2) := by
    rintro q Q ⟨R, e, l, z, k⟩
    obtain ⟨R', e', hh⟩ := old q R e
    refine ⟨R', e', ?_⟩
    rcases hh with ⟨h1, h2⟩ | ⟨h1, h2⟩
    · rw [h1, h2]; exact ⟨l, z, k⟩
    · subst h1 h2
      rw [hp] at e
      cases e
      refine ⟨hlv, fun _ => hni', fun hq => ?_⟩
      rcases k hq with k | k
      · exact absurd k hni
      · exact .inr (hex k)
  constructor
  · obtain ⟨Z, e, z, l⟩ := r.zero
    obtain ⟨R, e', hh⟩ := old 0 Z e
    refine ⟨R, e', ?_⟩
    rcases hh with ⟨h1, h2⟩ | ⟨h1, h2⟩
    · rw [h1, h2]; exact ⟨z, l⟩
    · subst h1
      rw [hp] at e
      cases e
      exact absurd z hni
  · intro q Q e hi
    rw [hs] at e
    split at e
    · exact absurd hi (hC Q e).2.2.1
    · split at e
      · cases e; exact absurd hi hni'
      · exact r.only q Q e hi
  · intro q Q e hself
    rw [hs] at e
    split at e
    · rename_i hq
      have := (hC Q e).1
      omega
    · split at e
      · rename_i hq
        cases e
        exact r.self q P (by rw [hq]; exact hp) (by rw [← hpar]; exact hself)
      · exact r.self q Q e hself
  · intro q Q e
    rw [hs] at e
    split at e
    · have := hC Q e
      obtain ⟨R, e', hh⟩ := old p P hp
      rw [this.1]
      rcases hh with ⟨h1, h2⟩ | ⟨h1, h2⟩
      · rw [hs, if_neg (by rintro ⟨h1, _⟩; omega), if_pos rfl] at e'
        cases e'
        exact ⟨P', by rw [hs, if_neg (by rintro ⟨h1, _⟩; omega), if_pos rfl], hlv, fun _ => hni', fun hq => .inr (this.2.2.2 hq)⟩
      · subst h2
        exact ⟨R, e', hlv, fun _ => hni', fun hq => .inr (this.2.2.2 hq)⟩
    · split at e
      · rename_i hq
        subst hq
        have e2 : P' = Q := by simpa using e
        subst e2
        obtain ⟨R, e', l, z, k⟩ := lift P.parent P (r.par _ P hp)
        rw [hpar]
        exact ⟨R, e', l, fun hh => by simp [hlv] at hh, fun hh => k (hlate hh)⟩
      · exact lift Q.parent Q (r.par q Q e)

/-- The end of a process. -/
theorem ends_procs (s : UxSt) (p P) : (s.ends p P).1.procs = s.left p P := by
  unfold UxSt.ends
  split
  · split <;> rfl
  · rfl

theorem ends_cases {s : UxSt} {p P q Q'} (e : (s.ends p P).1.procs q = some Q') :
    (q = p ∧ Q' = { P with live := false, fds := fun _ => none } ∧ ∃ R, s.procs P.parent = some R ∧ R.live = true ∧ R.pc ≠ .init) ∨
    (q ≠ p ∧ ∃ Q, s.procs q = some Q ∧ ((Q.parent ≠ p ∧ Q' = Q) ∨ (Q.parent = p ∧ Q.live = true ∧ Q' = { Q with parent := 0 }))) := by
  rw [ends_procs] at e
  unfold UxSt.left at e
  split at e
  · rename_i hq
    left
    split at e
    · rename_i R hR
      split at e
      · rename_i hk
        simp only [Bool.and_eq_true, decide_eq_true_eq] at hk
        exact ⟨hq, by simpa using e.symm, R, hR, hk⟩
      · simp at e
    · simp at e
  · rename_i hq
    right
    refine ⟨hq, ?_⟩
    split at e
    · rename_i Q eQ
      refine ⟨Q, eQ, ?_⟩
      split at e
      · rename_i hpp
        split at e
        · rename_i hlv
          exact .inr ⟨hpp, hlv, by simpa using e.symm⟩
        · simp at e
      · rename_i hpp
        exact .inl ⟨hpp, by simpa using e.symm⟩
    · simp at e

theorem ends_next (s : UxSt) (p P) : (s.ends p P).1.next = s.next ∧ (s.ends p P).1.fg = s.fg ∧ (s.ends p P).1.files = s.files ∧
    ∀ σ, (s.ends p P).1.ctty σ = s.ctty σ ∨ (s.ends p P).1.ctty σ = none := by
  unfold UxSt.ends
  split
  · split
    · refine ⟨rfl, rfl, rfl, fun σ => ?_⟩
      by_cases h : σ = p <;> simp [h]
    · exact ⟨rfl, rfl, rfl, fun σ => .inl rfl⟩
  · exact ⟨rfl, rfl, rfl, fun σ => .inl rfl⟩

theorem ends_sub {s : UxSt} (h : s.InvG) {p P} (hp : s.procs p = some P) : s.Sub (s.ends p P).1 := by
  obtain ⟨hn, hf, _, ht⟩ := ends_next s p P
  have cs : ∀ q Q', (s.ends p P).1.procs q = some Q' → ∃ Q, s.procs q = some Q ∧ Q'.group = Q.group ∧ Q'.session = Q.session ∧ Q'.pc = Q.pc ∧ (Q'.live = true → Q.live = true) := by
    intro q Q' e
    rcases ends_cases e with ⟨h1, h2, _⟩ | ⟨h1, Q, h2, ⟨_, h3⟩ | ⟨_, h4, h3⟩⟩
    · subst h1 h2; exact ⟨P, hp, rfl, rfl, rfl, by simp⟩
    · subst h3; exact ⟨Q', h2, rfl, rfl, rfl, id⟩
    · subst h3; exact ⟨Q, h2, rfl, rfl, rfl, id⟩
  constructor
  · omega
  · exact hf
  · exact ht
  · intro q Q' e
    obtain ⟨Q, e', g, se, _⟩ := cs q Q' e
    have := (h.bnd q Q e').1
    exact ⟨by omega, q, Q, e', g, se, .inl rfl⟩
  · intro q Q' e _ hl
    obtain ⟨Q, e', g, se, pc, l⟩ := cs q Q' e
    exact ⟨Q, e', l hl, by rw [pc]; exact id⟩
  · intro q Q' e hh
    obtain ⟨Q, e', g, se, pc, l⟩ := cs q Q' e
    exact .inl ⟨Q, e', by rw [← pc]; exact hh⟩
  · intro q Q' e hh
    obtain ⟨Q, e', g, se, pc, l⟩ := cs q Q' e
    exact ⟨Q, e', by rw [← pc]; exact hh⟩
  · intro q Q' e hh
    obtain ⟨Q, e', g, se, pc, l⟩ := cs q Q' e
    exact ⟨q, Q, e', by rw [← pc]; exact hh, se⟩

theorem ends_invR {s : UxSt} (r : s.InvR) {p P} (hp : s.procs p = some P) (hl : P.live = true) (hni : P.pc ≠ .init) : (s.ends p P).1.InvR := by
  have hz : p ≠ 0 := by
    rintro rfl
    obtain ⟨Z, e, z, _⟩ := r.zero
    rw [hp] at e; cases e; exact hni z
  have old : ∀ q Q, s.procs q = some Q → q ≠ p → Q.live = true → ∃ R, (s.ends p P).1.procs q = some R ∧ R.pc = Q.pc ∧ R.live = true := by
    intro q Q e hq hlv
    rw [ends_procs, UxSt.left, if_neg hq, e]
    by_cases hpp : Q.parent = p
    · exact ⟨{ Q with parent := 0 }, by simp [hpp, hlv], rfl, hlv⟩
    · exact ⟨Q, by simp [hpp], rfl, hlv⟩
  obtain ⟨Z, e, z, l⟩ := r.zero
  obtain ⟨Z', e', z', l'⟩ := old 0 Z e (Ne.symm hz) l
  have npar : ∀ (Q : UxProc), Q.parent ≠ p →
      (∃ R, s.procs Q.parent = some R ∧ R.live = true ∧ (Q.live = false → R.pc ≠ .init) ∧ (Q.pc.late = true → R.pc = .init ∨ R.pc = .exit1 ∨ R.pc = .exit2)) →
      ∃ R, (s.ends p P).1.procs Q.parent = some R ∧ R.live = true ∧ (Q.live = false → R.pc ≠ .init) ∧ (Q.pc.late = true → R.pc = .init ∨ R.pc = .exit1 ∨ R.pc = .exit2) := by
    rintro Q hq ⟨R, e, l, k⟩
    obtain ⟨R', e', pc, l'⟩ := old _ R e hq l
    exact ⟨R', e', l', by rw [pc]; exact k⟩
  constructor
  · exact ⟨Z', e', by rw [z', z], l'⟩
  · intro q Q' e hi
    rcases ends_cases e with ⟨h1, h2, _⟩ | ⟨h1, Q, h2, ⟨_, h3⟩ | ⟨_, h4, h3⟩⟩
    · subst h2; exact absurd hi hni
    · subst h3; exact r.only q _ h2 hi
    · subst h3; exact r.only q Q h2 hi
  · intro q Q' e hs
    rcases ends_cases e with ⟨h1, h2, _⟩ | ⟨h1, Q, h2, ⟨_, h3⟩ | ⟨_, h4, h3⟩⟩
    · subst h1 h2; exact r.self _ P hp hs
    · subst h3; exact r.self q _ h2 hs
    · subst h3; exact hs.symm
  · intro q Q' e
    rcases ends_cases e with ⟨h1, h2, R, hR, hRl, hRi⟩ | ⟨h1, Q, h2, ⟨hne, h3⟩ | ⟨_, h4, h3⟩⟩
    · subst h2
      have hne : P.parent ≠ p := fun hpp => hz (r.self p P hp hpp)
      obtain ⟨R0, e0, _, _, k0⟩ := r.par p P hp
      obtain ⟨R1, e1, pc1, l1⟩ := old _ R hR hne hRl
      rw [hR] at e0
      cases e0
      exact ⟨R1, e1, l1, fun _ => by rw [pc1]; exact hRi, by rw [pc1]; exact k0⟩
    · subst h3
      exact npar _ hne (r.par q _ h2)
    · subst h3
      exact ⟨Z', e', l', fun hh => by simp [h4] at hh, fun _ => .inl (by rw [z', z])⟩

theorem setsid_some {s s' : UxSt} {p P pc} (h : s.InvG) (e : s.setsid p P pc = some s') : (∀ q Q, s.procs q = some Q → Q.group ≠ p) ∧
    s' = { s.put p { P with group := p, session := p, pc := pc } with ctty := fun σ => if σ = p then none else s.ctty σ } := by
  unfold UxSt.setsid at e
  split at e
  · simp at e
  · rename_i hg
    refine ⟨fun q Q eq hh => hg ((hasGroup_iff s h p none).2 ⟨q, Q, eq, hh, by simp⟩), by simpa using e.symm⟩

theorem put_procs (s : UxSt) (p P q) : (s.put p P).procs q = if q = p then some P else s.procs q := rfl

theorem setsid_quiet {s s' : UxSt} {p P pc} (h : s.InvG) (hp : s.procs p = some P) (hl : P.live = true) (hpc : P.pc.leads = false)
    (e : s.setsid p P pc = some s') {σ} (hq : s.Quiet σ) : s'.Quiet σ := by
  have hσ : σ ≠ p := by
    rintro rfl
    have := hq.leader P hp hl
    simp [hpc] at this
  obtain ⟨_, rfl⟩ := setsid_some h e
  constructor
  · exact hq.bound
  · simp [hσ, hq.noTty]
  · intro Q e1
    simp only [put_procs, if_neg hσ] at e1
    exact hq.leader Q e1
  · intro q Q e1 hs
    simp only [put_procs] at e1
    split at e1
    · cases e1
      exact absurd hs (Ne.symm hσ)
    · exact hq.fg q Q e1 hs

theorem setsid_ok {s s' : UxSt} {p P pc} (h : s.InvG) (hb : s.InvB) (hp : s.procs p = some P) (hl : P.live = true)
    (hpc : (P.pc.free = true ∧ pc = P.pc) ∨ (P.pc = .setsid ∧ pc = .fork2)) (e : s.setsid p P pc = some s') : s'.InvG ∧ s'.InvB := by
  have hld : P.pc.leads = false := by
    rcases hpc with ⟨h1, _⟩ | ⟨h1, _⟩
    · rw [free_eq] at h1; rcases h1 with h1 | h1 <;> simp [h1, BootPc.leads]
    · simp [h1, BootPc.leads]
  have hqu := fun σ (hq : s.Quiet σ) => setsid_quiet h hp hl hld e hq
  obtain ⟨hg, rfl⟩ := setsid_some h e
  have bp := (h.bnd p P hp).1
  have cs : ∀ q Q, ({ s.put p { P with group := p, session := p, pc := pc } with ctty := fun σ => if σ = p then none else s.ctty σ } : UxSt).procs q = some Q →
      (q = p ∧ Q = { P with group := p, session := p, pc := pc }) ∨ (q ≠ p ∧ s.procs q = some Q) := by
    intro q Q e
    simp only [put_procs] at e
    split at e
    · rename_i hq; exact .inl ⟨hq, by simpa using e.symm⟩
    · rename_i hq; exact .inr ⟨hq, e⟩
  refine ⟨⟨?_, h.bfg, ?_, ?_⟩, ⟨?_, ?_, ?_⟩⟩
  · intro q Q e
    rcases cs q Q e with ⟨rfl, rfl⟩ | ⟨_, e⟩
    · exact ⟨bp, bp, bp⟩
    · exact h.bnd q Q e
  · intro p1 P1 q Q e1 e2 hgg
    rcases cs p1 P1 e1 with ⟨rfl, rfl⟩ | ⟨_, i1⟩ <;> rcases cs q Q e2 with ⟨rfl, rfl⟩ | ⟨_, i2⟩
    · rfl
    · exact absurd hgg.symm (hg q Q i2)
    · exact absurd hgg (hg p1 P1 i1)
    · exact h.grp p1 P1 q Q i1 i2 hgg
  · intro q Q G e1 e2
    rcases cs q Q e1 with ⟨rfl, rfl⟩ | ⟨_, e1⟩ <;> rcases cs _ G e2 with ⟨h2, h3⟩ | ⟨h2, e2⟩
    · subst h3; rfl
    · exact absurd rfl h2
    · exact absurd h2 (hg q Q e1)
    · exact h.lead q Q G e1 e2
  · intro p1 P1 e1 hs
    have hne : p1 ≠ p ∧ s.procs p1 = some P1 := by
      rcases cs p1 P1 e1 with ⟨rfl, rfl⟩ | ⟨hne, e1⟩
      · rcases hpc with ⟨h1, h2⟩ | ⟨_, h2⟩
        · rw [free_eq] at h1
          simp only [h2] at hs
          rcases h1 with h1 | h1 <;> simp [h1] at hs
        · simp [h2] at hs
      · exact ⟨hne, e1⟩
    have key := hb.sid p1 P1 hne.2 hs
    refine ⟨fun q Q e2 => ?_, key.2⟩
    rcases cs q Q e2 with ⟨rfl, rfl⟩ | ⟨_, e2⟩
    · exact ⟨Ne.symm hne.1, Ne.symm hne.1⟩
    · exact key.1 q Q e2
  · intro p1 P1 e1 hs
    rcases cs p1 P1 e1 with ⟨rfl, rfl⟩ | ⟨hne, e1⟩
    · rfl
    · exact hb.ses p1 P1 e1 hs
  · intro p1 P1 e1 hs
    rcases cs p1 P1 e1 with ⟨rfl, rfl⟩ | ⟨hne, e1⟩
    · rcases hpc with ⟨h1, h2⟩ | ⟨h1, h2⟩
      · subst h2
        rw [free_eq] at h1
        rcases h1 with h1 | h1 <;> simp [h1, BootPc.leads, BootPc.mid] at hs
      · subst h2
        have key := hb.sid _ P hp h1
        refine ⟨bp, by simp, fun Q e2 _ => ?_, fun q Q e2 hs2 n => ?_⟩
        · rcases cs _ Q e2 with ⟨_, rfl⟩ | ⟨hne, _⟩
          · rfl
          · exact absurd rfl hne
        · rcases cs _ Q e2 with ⟨rfl, rfl⟩ | ⟨hne, e2⟩
          · exact ⟨key.2 n, key.2 n⟩
          · exact absurd hs2 (key.1 q Q e2).2
    · exact hqu _ (hb.quiet p1 P1 e1 hs)

theorem setpgid_ok {s : UxSt} (h : s.InvG) (hb : s.InvB) (r : s.InvR) {p P q Q g} (hp : s.procs p = some P) (hf : P.pc.free = true) (hq : s.procs q = some Q)
    (h1 : q = p ∨ Q.parent = p) (h2 : Q.session = P.session) (h3 : Q.session ≠ q) (h4 : g = q ∨ s.hasGroup g (some P.session) = true) :
    (s.put q { Q with group := g }).InvG ∧ (s.put q { Q with group := g }).InvB ∧ ∀ σ, s.Quiet σ → (s.put q { Q with group := g }).Quiet σ := by
  have h4' : g = q ∨ ∃ t R, s.procs t = some R ∧ R.group = g ∧ R.session = Q.session := by
    rcases h4 with h4 | h4
    · exact .inl h4
    · obtain ⟨t, R, e, e1, e2⟩ := (hasGroup_iff s h g _).1 h4
      exact .inr ⟨t, R, e, e1, by rw [e2 _ rfl, h2]⟩
  have hsid : Q.pc ≠ .setsid := by
    intro hh
    rw [free_eq] at hf
    rcases h1 with h1 | h1
    · subst h1
      rw [hp] at hq; cases hq
      rcases hf with hf | hf <;> simp [hf] at hh
    · obtain ⟨R, e, _, _, k⟩ := r.par q Q hq
      rw [h1, hp] at e; cases e
      have := k (by simp [hh, BootPc.late])
      rcases hf with hf | hf <;> simp [hf] at this
  have cs : ∀ t T, (s.put q { Q with group := g }).procs t = some T → (t = q ∧ T = { Q with group := g }) ∨ (t ≠ q ∧ s.procs t = some T) := by
    intro t T e
    rw [put_procs] at e
    split at e
    · rename_i hq; exact .inl ⟨hq, by simpa using e.symm⟩
    · rename_i hq; exact .inr ⟨hq, e⟩
  have grp' : ∀ t T, s.procs t = some T → T.group = g → T.session = Q.session := by
    intro t T e hg
    rcases h4' with h4 | ⟨t', R, e1, e2, e3⟩
    · subst h4 hg
      exact (h.lead t T Q e hq).symm
    · rw [← e3]
      exact h.grp t T t' R e e1 (by rw [hg, e2])
  have bq := h.bnd q Q hq
  have bg : g < s.next := by
    rcases h4' with h4 | ⟨t', R, e1, e2, e3⟩
    · omega
    · have := (h.bnd t' R e1).2.1; omega
  have hqu : ∀ σ, s.Quiet σ → (s.put q { Q with group := g }).Quiet σ := by
    intro σ k
    refine ⟨k.bound, k.noTty, fun T e hl => ?_, fun t T e hs n => ?_⟩
    · rcases cs _ T e with ⟨rfl, rfl⟩ | ⟨_, e⟩
      · exact k.leader Q hq hl
      · exact k.leader T e hl
    · rcases cs _ T e with ⟨rfl, rfl⟩ | ⟨_, e⟩
      · have k1 := k.fg _ Q hq hs n
        refine ⟨k1.1, ?_⟩
        rcases h4' with h4 | ⟨t', R, e1, e2, e3⟩
        · subst h4; exact k1.1
        · have := (k.fg t' R e1 (by rw [e3]; exact hs) n).2
          rw [e2] at this
          exact this
      · exact k.fg t T e hs n
  refine ⟨⟨?_, h.bfg, ?_, ?_⟩, ⟨?_, ?_, ?_⟩, hqu⟩
  · intro t T e
    rcases cs t T e with ⟨rfl, rfl⟩ | ⟨_, e⟩
    · exact ⟨bq.1, bg, bq.2.2⟩
    · exact h.bnd t T e
  · intro t T u U e1 e2 hg
    rcases cs t T e1 with ⟨rfl, rfl⟩ | ⟨_, i1⟩ <;> rcases cs u U e2 with ⟨rfl, rfl⟩ | ⟨_, i2⟩
    · rfl
    · exact (grp' u U i2 hg.symm).symm
    · exact grp' t T i1 hg
    · exact h.grp t T u U i1 i2 hg
  · intro t T G e1 e2
    rcases cs t T e1 with ⟨rfl, rfl⟩ | ⟨_, e1⟩ <;> rcases cs _ G e2 with ⟨h5, h6⟩ | ⟨h5, e2⟩
    · subst h6; rfl
    · rcases h4' with h4 | ⟨t', R, e3, e4, e5⟩
      · exact absurd h4 h5
      · simp only at e2
        rw [← e4] at e2
        show G.session = Q.session
        rw [← e5]
        exact h.lead t' R G e3 e2
    · subst h6
      exact h.lead t T Q e1 (by rw [h5]; exact hq)
    · exact h.lead t T G e1 e2
  · intro t T e hs
    have key : t ≠ q ∧ s.procs t = some T := by
      rcases cs t T e with ⟨rfl, rfl⟩ | ⟨hne, e⟩
      · exact absurd hs hsid
      · exact ⟨hne, e⟩
    have k := hb.sid t T key.2 hs
    refine ⟨fun u U e2 => ?_, k.2⟩
    rcases cs u U e2 with ⟨rfl, rfl⟩ | ⟨_, e2⟩
    · refine ⟨?_, (k.1 _ Q hq).2⟩
      rcases h4' with h4 | ⟨t', R, e3, e4, e5⟩
      · exact fun hh => key.1 (by rw [← hh]; exact h4)
      · show g ≠ t
        rw [← e4]
        exact (k.1 t' R e3).1
    · exact k.1 u U e2
  · intro t T e hs
    rcases cs t T e with ⟨rfl, rfl⟩ | ⟨_, e⟩
    · exact hb.ses _ Q hq hs
    · exact hb.ses t T e hs
  · intro t T e hs
    rcases cs t T e with ⟨rfl, rfl⟩ | ⟨_, e⟩
    · exact hqu _ (hb.quiet _ Q hq hs)
    · exact hqu _ (hb.quiet t T e hs)

/-- A terminal for a session, and a foreground group of that session. -/
theorem tty_ok {s s' : UxSt} (h : s.InvG) (hb : s.InvB) (τ : Nat) (hτ : ¬ s.Quiet τ) (hs : s'.procs = s.procs) (hn : s'.next = s.next) (ht : ∀ σ, σ ≠ τ → s'.ctty σ = s.ctty σ)
    (hf : ∀ m, s'.fg m = s.fg m ∨ ∃ t R, s.procs t = some R ∧ R.group = s'.fg m ∧ R.session = τ) :
    s'.InvG ∧ s'.InvB ∧ ∀ σ, s.Quiet σ → s'.Quiet σ := by
  have hqu : ∀ σ, s.Quiet σ → s'.Quiet σ := by
    intro σ k
    have hσ : σ ≠ τ := fun hh => hτ (hh ▸ k)
    refine ⟨by rw [hn]; exact k.bound, by rw [ht σ hσ]; exact k.noTty, by rw [hs]; exact k.leader, fun q Q e hq n => ?_⟩
    rw [hs] at e
    rcases hf n with hh | ⟨t, R, e1, e2, e3⟩
    · rw [hh]; exact k.fg q Q e hq n
    · rw [← e2]
      constructor
      · intro hh
        have := h.lead t R Q e1 (by rw [hh]; exact e)
        exact hσ (by rw [← hq, this, e3])
      · intro hh
        have := h.grp t R q Q e1 e hh
        exact hσ (by rw [← hq, ← this, e3])
  refine ⟨⟨?_, ?_, ?_, ?_⟩, ⟨?_, ?_, ?_⟩, hqu⟩
  · rw [hs, hn]; exact h.bnd
  · intro n
    rw [hn]
    rcases hf n with hh | ⟨t, R, e1, e2, e3⟩
    · rw [hh]; exact h.bfg n
    · rw [← e2]; exact (h.bnd t R e1).2.1
  · rw [hs]; exact h.grp
  · rw [hs]; exact h.lead
  · rw [hs]
    intro p P e hp
    have k := hb.sid p P e hp
    refine ⟨k.1, fun n => ?_⟩
    rcases hf n with hh | ⟨t, R, e1, e2, e3⟩
    · rw [hh]; exact k.2 n
    · rw [← e2]; exact (k.1 t R e1).1
  · rw [hs]; exact hb.ses
  · intro p P e hp
    rw [hs] at e
    exact hqu _ (hb.quiet p P e hp)

/-- All invariants about processes. -/
structure UxSt.Ok (s : UxSt) : Prop where
  g : s.InvG
  b : s.InvB
  r : s.InvR

/-- Everything that holds after an event. -/
def UxSt.Next (s s' : UxSt) : Prop := s'.Ok ∧ ∀ σ, s.Quiet σ → s'.Quiet σ

theorem next_refl {s : UxSt} (h : s.Ok) : s.Next s := ⟨h, fun _ => id⟩

theorem next_sub {s s' : UxSt} (h : s.Ok) (r : s.Sub s') (hr : s'.InvR) : s.Next s' := ⟨⟨r.invG h.g, r.invB h.g h.b, hr⟩, fun _ => r.quiet h.g⟩

theorem next_change {s s' : UxSt} (h : s.Ok) {p P} (hp : s.procs p = some P) (hl : P.live = true) (P' : UxProc)
    (hs : ∀ q, s'.procs q = if q = p then some P' else s.procs q) (hn : s'.next = s.next) (hf : s'.fg = s.fg) (ht : s'.ctty = s.ctty)
    (g : P'.group = P.group) (se : P'.session = P.session) (hpar : P'.parent = P.parent) (hlv : P'.live = true) (hni : P.pc ≠ .init) (hni' : P'.pc ≠ .init)
    (hsid : P'.pc = .setsid → P.pc = .setsid) (hld : P'.pc.leads = P.pc.leads) (hmid : P'.pc.mid = true → P.pc.mid = true) (hlate : P'.pc.late = true → P.pc.late = true)
    (hex : P.pc = .exit1 ∨ P.pc = .exit2 → P'.pc = .exit1 ∨ P'.pc = .exit2) : s.Next s' :=
  next_sub h (birth_sub h.g hp hl P' none (by simpa using hs) (by simpa using hn) hf ht g se hsid hld hmid (by simp))
    (birth_invR h.g h.r hp hl P' none (by simpa using hs) hpar hlv hni hni' hlate hex (by simp))

theorem fork_procs (s : UxSt) (p P pc pc' line q) : (s.fork p P pc pc' line).procs q =
    if q = s.next then some { P with parent := p, pc := pc', line := line } else if q = p then some { P with pc := pc } else s.procs q := rfl

theorem next_fork {s : UxSt} (h : s.Ok) {p P} (hp : s.procs p = some P) (hl : P.live = true) (pc pc' : BootPc) (line : Option Nat) (hni : P.pc ≠ .init) (hni' : pc ≠ .init) (hnc : pc' ≠ .init)
    (hsid : pc = .setsid → P.pc = .setsid) (hld : pc.leads = P.pc.leads) (hmid : pc.mid = true → P.pc.mid = true) (hlate : pc.late = true → P.pc.late = true)
    (hex : P.pc = .exit1 ∨ P.pc = .exit2 → pc = .exit1 ∨ pc = .exit2)
    (c1 : pc'.leads = false) (c2 : pc'.mid = true → P.pc.leads = true) (c3 : pc'.late = true → pc = .exit1 ∨ pc = .exit2) : s.Next (s.fork p P pc pc' line) := by
  have hs : ∀ q, (s.fork p P pc pc' line).procs q = if q = s.next ∧ (some { P with parent := p, pc := pc', line := line } : Option UxProc).isSome then
      some { P with parent := p, pc := pc', line := line } else if q = p then some { P with pc := pc } else s.procs q := by
    intro q
    rw [fork_procs]
    simp
  refine next_sub h (birth_sub h.g hp hl _ _ hs ?_ rfl rfl rfl rfl hsid hld hmid ?_) (birth_invR h.g h.r hp hl _ _ hs rfl hl hni hni' hlate hex ?_)
  · rfl
  · intro c hc
    cases hc
    exact ⟨rfl, rfl, c1, c2⟩
  · intro c hc
    cases hc
    exact ⟨rfl, hl, hnc, c3⟩

theorem next_ends {s : UxSt} (h : s.Ok) {p P} (hp : s.procs p = some P) (hl : P.live = true) (hni : P.pc ≠ .init) : s.Next (s.ends p P).1 :=
  next_sub h (ends_sub h.g hp) (ends_invR h.r hp hl hni)

theorem next_setsid {s s' : UxSt} (h : s.Ok) {p P pc} (hp : s.procs p = some P) (hl : P.live = true)
    (hpc : (P.pc.free = true ∧ pc = P.pc) ∨ (P.pc = .setsid ∧ pc = .fork2)) (e : s.setsid p P pc = some s') : s.Next s' := by
  obtain ⟨hg, hb⟩ := setsid_ok h.g h.b hp hl hpc e
  have hld : P.pc.leads = false := by
    rcases hpc with ⟨h1, _⟩ | ⟨h1, _⟩
    · rw [free_eq] at h1; rcases h1 with h1 | h1 <;> simp [h1, BootPc.leads]
    · simp [h1, BootPc.leads]
  refine ⟨⟨hg, hb, ?_⟩, fun σ hq => setsid_quiet h.g hp hl hld e hq⟩
  obtain ⟨_, rfl⟩ := setsid_some h.g e
  refine birth_invR h.g h.r hp hl { P with group := p, session := p, pc := pc } none (fun q => by simp [put_procs]) rfl hl ?_ ?_ ?_ ?_ (by simp)
  all_goals
    rcases hpc with ⟨h1, h2⟩ | ⟨h1, h2⟩
    · rw [free_eq] at h1; rcases h1 with h1 | h1 <;> simp [h1, h2]
    · simp [h1, h2, BootPc.late]

theorem low_free (fds : Nat → Option Nat) (h : ∀ x, x < 3 → (fds x).isSome = true) : freeFd fds = 3 := by
  have h0 := h 0 (by omega)
  have h1 := h 1 (by omega)
  have h2 := h 2 (by omega)
  unfold freeFd
  simp [Option.isNone_iff_eq_none, Option.isSome_iff_ne_none] at *
  simp [h0, h1, h2]

theorem next_boot {s : UxSt} (h : s.Ok) {p P} (hp : s.procs p = some P) (hl : P.live = true) : s.Next (s.bootStep p P).1 := by
  unfold UxSt.bootStep
  split
  · rename_i e
    refine next_fork h hp hl .exit1 .setsid P.line ?_ ?_ ?_ ?_ ?_ ?_ ?_ ?_ ?_ ?_ ?_ <;> simp [e, BootPc.leads, BootPc.late, BootPc.mid]
  · rename_i e
    exact next_ends h hp hl (by simp [e])
  · rename_i e
    split
    · rename_i s' hs
      exact next_setsid h hp hl (.inr ⟨e, rfl⟩) hs
    · exact next_ends h hp hl (by simp [e])
  · rename_i e
    refine next_fork h hp hl .exit2 .open_ (some s.next) ?_ ?_ ?_ ?_ ?_ ?_ ?_ ?_ ?_ ?_ ?_ <;> simp [e, BootPc.leads, BootPc.late, BootPc.mid]
  · rename_i e
    exact next_ends h hp hl (by simp [e])
  · rename_i e
    refine next_change h hp hl { P with pc := .dup (freeFd P.fds) 0, fds := fun x => if x = freeFd P.fds then some s.files else P.fds x } (fun q => rfl) rfl rfl rfl rfl rfl rfl hl ?_ ?_ ?_ ?_ ?_ ?_ ?_ <;>
      simp [e, BootPc.leads, BootPc.late, BootPc.mid]
  · rename_i f k e
    refine next_change h hp hl { P with pc := if k < 2 then .dup f (k + 1) else .serving, fds := fun x => if x = k then P.fds f else P.fds x } (fun q => rfl) rfl rfl rfl rfl rfl rfl hl ?_ ?_ ?_ ?_ ?_ ?_ ?_ <;>
      (by_cases hk : k < 2 <;> simp [e, hk, BootPc.leads, BootPc.late, BootPc.mid])
  · exact next_refl h

theorem next_fds {s s' : UxSt} (h : s.Ok) {p P} (hp : s.procs p = some P) (hl : P.live = true) (hf : P.pc.free = true) (fds : Nat → Option Nat)
    (hs : ∀ q, s'.procs q = if q = p then some { P with fds := fds } else s.procs q) (hn : s'.next = s.next) (hg : s'.fg = s.fg) (ht : s'.ctty = s.ctty) : s.Next s' := by
  rw [free_eq] at hf
  refine next_change h hp hl { P with fds := fds } hs hn hg ht rfl rfl rfl hl ?_ ?_ id rfl id id id
  · rcases hf with e | e <;> simp [e]
  · rcases hf with e | e <;> simp [e]

theorem not_quiet_of_tty {s : UxSt} {σ n} (h : s.ctty σ = some n) : ¬ s.Quiet σ := fun k => by simp [k.noTty] at h

theorem next_step {s : UxSt} (h : s.Ok) (e : UxEv) : s.Next (s.step e).1 := by
  cases e with
  | fork p =>
    simp only [UxSt.step]
    split
    · rename_i P hc
      obtain ⟨hp, hl, hf⟩ := caller_some hc
      rw [free_eq] at hf
      refine next_fork h hp hl P.pc .user P.line ?_ ?_ ?_ id rfl id id id rfl ?_ ?_ <;> rcases hf with e | e <;> simp [e, BootPc.mid, BootPc.late]
    · exact next_refl h
  | setsid p =>
    simp only [UxSt.step]
    split
    · rename_i P hc
      obtain ⟨hp, hl, hf⟩ := caller_some hc
      split
      · rename_i s' hs
        exact next_setsid h hp hl (.inl ⟨hf, rfl⟩) hs
      · exact next_refl h
    · exact next_refl h
  | setpgid p q g =>
    simp only [UxSt.step]
    split
    · rename_i P Q hc hq
      obtain ⟨hp, hl, hf⟩ := caller_some hc
      split
      · rename_i hh
        obtain ⟨h1, h2, h3⟩ := setpgid_ok h.g h.b h.r hp hf hq hh.1 hh.2.1 hh.2.2.1 hh.2.2.2
        refine ⟨⟨h1, h2, ?_⟩, h3⟩
        have hc : ∀ t T, (s.put q { Q with group := g }).procs t = some T → ∃ T0, s.procs t = some T0 ∧ T.pc = T0.pc ∧ T.live = T0.live ∧ T.parent = T0.parent := by
          intro t T e
          rw [put_procs] at e
          split at e
          · rename_i hh; subst hh; cases e; exact ⟨Q, hq, rfl, rfl, rfl⟩
          · exact ⟨T, e, rfl, rfl, rfl⟩
        have hc' : ∀ t T0, s.procs t = some T0 → ∃ T, (s.put q { Q with group := g }).procs t = some T ∧ T.pc = T0.pc ∧ T.live = T0.live := by
          intro t T e
          rw [put_procs]
          split
          · rename_i hh; subst hh; rw [hq] at e; cases e; exact ⟨_, rfl, rfl, rfl⟩
          · exact ⟨T, e, rfl, rfl⟩
        constructor
        · obtain ⟨Z, e, z, l⟩ := h.r.zero
          obtain ⟨T, e1, e2, e3⟩ := hc' 0 Z e
          exact ⟨T, e1, by rw [e2, z], by rw [e3, l]⟩
        · intro t T e hi
          obtain ⟨T0, e1, e2, _⟩ := hc t T e
          exact h.r.only t T0 e1 (by rw [← e2, hi])
        · intro t T e hi
          obtain ⟨T0, e1, _, _, e2⟩ := hc t T e
          exact h.r.self t T0 e1 (by rw [← e2, hi])
        · intro t T e
          obtain ⟨T0, e1, e2, e3, e4⟩ := hc t T e
          obtain ⟨R, k1, k2, k3⟩ := h.r.par t T0 e1
          obtain ⟨R', m1, m2, m3⟩ := hc' _ R k1
          rw [e4, e3, e2]
          exact ⟨R', m1, by rw [m3, k2], by rw [m2]; exact k3⟩
      · exact next_refl h
    · exact next_refl h
  | openTty p x n =>
    simp only [UxSt.step]
    split
    · rename_i P hc
      obtain ⟨hp, hl, hf⟩ := caller_some hc
      have k : s.Next { s.put p { P with fds := fun y => if y = x then some s.files else P.fds y } with files := s.files + 1 } :=
        next_fds h hp hl hf _ (fun q => rfl) rfl rfl rfl
      split
      · rename_i hh
        generalize hs1 : ({ s.put p { P with fds := fun y => if y = x then some s.files else P.fds y } with files := s.files + 1 } : UxSt) = s1 at k
        have e1 : s1.procs p = some { P with fds := fun y => if y = x then some s.files else P.fds y } := by subst hs1; simp [put_procs]
        have e2 : s1.ctty = s.ctty := by subst hs1; rfl
        have e3 : s1.fg = s.fg := by subst hs1; rfl
        have nq : ¬ s1.Quiet p := by
          intro kq
          have := kq.leader _ e1 hl
          rw [free_eq] at hf
          rcases hf with hf | hf <;> simp [hf, BootPc.leads] at this
        obtain ⟨a1, a2, a3⟩ := tty_ok (s := s1)
          (s' := { s1 with ctty := fun σ => if σ = p then some n else s.ctty σ, fg := fun m => if m = n then P.group else s.fg m }) k.1.g k.1.b p nq rfl rfl
          (fun σ hσ => by simp [hσ, e2]) (fun m => by
            by_cases hm : m = n
            · exact .inr ⟨p, _, e1, by simp [hm], hh.1⟩
            · exact .inl (by simp [hm, e3]))
        subst hs1
        exact ⟨⟨a1, a2, ⟨k.1.r.zero, k.1.r.only, k.1.r.self, k.1.r.par⟩⟩, fun σ hq => a3 σ (k.2 σ hq)⟩
      · exact k
    · exact next_refl h
  | setFg p g =>
    simp only [UxSt.step]
    split
    · rename_i P hc
      obtain ⟨hp, hl, hf⟩ := caller_some hc
      split
      · rename_i n hn
        split
        · rename_i hg
          obtain ⟨t, R, e1, e2, e3⟩ := (hasGroup_iff s h.g g _).1 hg
          obtain ⟨a1, a2, a3⟩ := tty_ok (s := s) (s' := { s with fg := fun m => if m = n then g else s.fg m }) h.g h.b P.session (not_quiet_of_tty hn) rfl rfl (fun _ _ => rfl) (fun m => by
            by_cases hm : m = n
            · exact .inr ⟨t, R, e1, by simp [hm, e2], e3 _ rfl⟩
            · exact .inl (by simp [hm]))
          exact ⟨⟨a1, a2, ⟨h.r.zero, h.r.only, h.r.self, h.r.par⟩⟩, a3⟩
        · exact next_refl h
      · exact next_refl h
    · exact next_refl h
  | opens p x =>
    simp only [UxSt.step]
    split
    · rename_i P hc
      obtain ⟨hp, hl, hf⟩ := caller_some hc
      exact next_fds h hp hl hf _ (fun q => rfl) rfl rfl rfl
    · exact next_refl h
  | dup p x y =>
    simp only [UxSt.step]
    split
    · rename_i P hc
      obtain ⟨hp, hl, hf⟩ := caller_some hc
      exact next_fds h hp hl hf _ (fun q => rfl) rfl rfl rfl
    · exact next_refl h
  | close p x =>
    simp only [UxSt.step]
    split
    · rename_i P hc
      obtain ⟨hp, hl, hf⟩ := caller_some hc
      exact next_fds h hp hl hf _ (fun q => rfl) rfl rfl rfl
    · exact next_refl h
  | ends p =>
    simp only [UxSt.step]
    split
    · rename_i P hp
      split
      · rename_i hh
        simp only [Bool.and_eq_true, decide_eq_true_eq] at hh
        exact next_ends h hp hh.1 hh.2
      · exact next_refl h
    · exact next_refl h
  | wait p q =>
    simp only [UxSt.step]
    split
    · rename_i P Q hc hq
      split
      · rename_i hh
        have cs : ∀ t T, (if t = q then none else s.procs t) = some T → t ≠ q ∧ s.procs t = some T := by
          intro t T e
          split at e
          · simp at e
          · exact ⟨‹_›, e⟩
        refine next_sub h ⟨Nat.le_refl _, rfl, fun _ => .inl rfl, fun t T e => ?_, fun t T e _ hl => ?_, fun t T e hs => ?_, fun t T e hs => ?_, fun t T e hs => ?_⟩ ⟨?_, ?_, ?_, ?_⟩
        · exact ⟨(h.g.bnd t T (cs t T e).2).1, t, T, (cs t T e).2, rfl, rfl, .inl rfl⟩
        · exact ⟨T, (cs t T e).2, hl, id⟩
        · exact .inl ⟨T, (cs t T e).2, hs⟩
        · exact ⟨T, (cs t T e).2, hs⟩
        · exact ⟨t, T, (cs t T e).2, hs, rfl⟩
        · obtain ⟨Z, e, z, l⟩ := h.r.zero
          refine ⟨Z, ?_, z, l⟩
          have : (0 : Nat) ≠ q := by rintro rfl; rw [hq] at e; cases e; simp [hh.2] at l
          simp [this, e]
        · exact fun t T e => h.r.only t T (cs t T e).2
        · exact fun t T e => h.r.self t T (cs t T e).2
        · intro t T e
          obtain ⟨R, k1, k2, k3⟩ := h.r.par t T (cs t T e).2
          refine ⟨R, ?_, k2, k3⟩
          have : T.parent ≠ q := by intro h'; rw [h', hq] at k1; cases k1; simp [hh.2] at k2
          simp [this, k1]
      · exact next_refl h
    · exact next_refl h
  | start p daemon =>
    simp only [UxSt.step]
    split
    · rename_i P hc
      obtain ⟨hp, hl, hf⟩ := caller_some hc
      rw [free_eq] at hf
      have hs : ∀ q, ({ s.birth { P with parent := p, pc := if daemon then .start else .user, fds := startFds P s.files daemon } with files := s.files + 1 } : UxSt).procs q =
          if q = s.next ∧ (some { P with parent := p, pc := if daemon then .start else .user, fds := startFds P s.files daemon } : Option UxProc).isSome then
          some { P with parent := p, pc := if daemon then .start else .user, fds := startFds P s.files daemon } else if q = p then some P else s.procs q := by
        intro q
        simp only [UxSt.birth, put_procs, Option.isSome_some, and_true]
        split
        · rfl
        · split
          · rename_i hh; rw [hh, hp]
          · rfl
      refine next_sub h (birth_sub h.g hp hl P _ hs rfl rfl rfl rfl rfl id rfl id ?_) (birth_invR h.g h.r hp hl P _ hs rfl hl ?_ ?_ id id ?_)
      · intro c hc
        cases hc
        refine ⟨rfl, rfl, ?_, ?_⟩ <;> cases daemon <;> simp [BootPc.leads, BootPc.mid]
      · rcases hf with e | e <;> simp [e]
      · rcases hf with e | e <;> simp [e]
      · intro c hc
        cases hc
        refine ⟨rfl, hl, ?_, ?_⟩ <;> cases daemon <;> simp [BootPc.late]
    · exact next_refl h
  | boot p =>
    simp only [UxSt.step]
    split
    · rename_i P hp
      split
      · rename_i hl
        exact next_boot h hp hl
      · exact next_refl h
    · exact next_refl h
  | hangup n => exact next_refl h
  | key n => exact next_refl h
  | kill q => exact next_refl h
  | killGroup g => exact next_refl h
end Verif
