import Verif.Proof.DaemonHistory
/-!
# C126: a daemon is independent of the process and the terminal that started it

The four promises of /repo/teleprox/process.py:101-111 for posix systems. A daemon is born by the second fork (bootstrap.py:37); its first step is to open /dev/null. The theorems hold from
then on, after any history of the system, whatever all programs, the daemon's own included, do. `start_process` comes back only later, when the daemon has reported (C99).
-/
namespace Verif

/-- After the history `h`, `p` is a daemon that was just born. -/
def Born (h : List UxEv) (p : Nat) (P : UxProc) : Prop := (UxSt.boot.run h).1.procs p = some P ∧ P.pc = .open_

theorem mem_signal {s : UxSt} {c f g} (h : g ∈ s.signal c f) : g.cause = c ∧ ∃ Q, s.procs g.to = some Q ∧ Q.live = true ∧ f g.to Q = true := by
  unfold UxSt.signal at h
  rw [List.mem_filterMap] at h
  obtain ⟨q, _, hq⟩ := h
  split at hq
  · rename_i Q e
    split at hq
    · rename_i hh
      simp only [Option.some.injEq] at hq
      subst hq
      rw [Bool.and_eq_true] at hh
      exact ⟨rfl, Q, e, hh.1, hh.2⟩
    · cases hq
  · cases hq

theorem ends_signals {s : UxSt} {p P g} (h : g ∈ (s.ends p P).2) : ∃ n, g.cause = .leader p ∧ ∃ Q, s.procs g.to = some Q ∧ Q.live = true ∧ Q.group = s.fg n := by
  unfold UxSt.ends at h
  split at h
  · rename_i n hn
    split at h
    · obtain ⟨h1, Q, e, l, hf⟩ := mem_signal h
      exact ⟨n, h1, Q, e, l, of_decide_eq_true hf⟩
    · simp at h
  · simp at h

theorem boot_signals {s : UxSt} {p P g} (h : g ∈ (s.bootStep p P).2) : g ∈ (s.ends p P).2 := by
  unfold UxSt.bootStep at h
  split at h
  case h_2 => exact h
  case h_5 => exact h
  case h_3 =>
    split at h
    · simp at h
    · exact h
  all_goals simp at h

/-- Where signals come from. -/
theorem step_signals {s : UxSt} {e g} (h : g ∈ (s.step e).2) : ∃ Q, s.procs g.to = some Q ∧ Q.live = true ∧
    ((e = .kill g.to ∧ g.cause = .direct) ∨ (e = .killGroup Q.group ∧ g.cause = .group Q.group) ∨ (∃ n, Q.group = s.fg n) ∨ (Q.session = g.to ∧ ∃ n, s.ctty g.to = some n)) := by
  have ends : ∀ p P, g ∈ (s.ends p P).2 → ∃ Q, s.procs g.to = some Q ∧ Q.live = true ∧
    ((e = .kill g.to ∧ g.cause = .direct) ∨ (e = .killGroup Q.group ∧ g.cause = .group Q.group) ∨ (∃ n, Q.group = s.fg n) ∨ (Q.session = g.to ∧ ∃ n, s.ctty g.to = some n)) := by
    intro p P hh
    obtain ⟨n, _, Q, e, l, hg⟩ := ends_signals hh
    exact ⟨Q, e, l, .inr (.inr (.inl ⟨n, hg⟩))⟩
  cases e with
  | ends p =>
    simp only [UxSt.step] at h
    split at h
    · rename_i P hp
      split at h
      · exact ends p P h
      · simp at h
    · simp at h
  | boot p =>
    simp only [UxSt.step] at h
    split at h
    · rename_i P hp
      split at h
      · exact ends p P (boot_signals h)
      · simp at h
    · simp at h
  | hangup n =>
    obtain ⟨_, Q, e, l, hf⟩ := mem_signal h
    refine ⟨Q, e, l, ?_⟩
    simp only [Bool.or_eq_true, Bool.and_eq_true, decide_eq_true_eq] at hf
    rcases hf with hf | hf
    · exact .inr (.inr (.inr ⟨hf.1, n, hf.2⟩))
    · exact .inr (.inr (.inl ⟨n, hf⟩))
  | key n =>
    obtain ⟨_, Q, e, l, hf⟩ := mem_signal h
    exact ⟨Q, e, l, .inr (.inr (.inl ⟨n, of_decide_eq_true hf⟩))⟩
  | kill q =>
    obtain ⟨hc, Q, e, l, hf⟩ := mem_signal h
    have hq : g.to = q := of_decide_eq_true hf
    exact ⟨Q, e, l, .inl ⟨by rw [hq], hc⟩⟩
  | killGroup k =>
    obtain ⟨hc, Q, e, l, hf⟩ := mem_signal h
    have hq : Q.group = k := of_decide_eq_true hf
    exact ⟨Q, e, l, .inr (.inl ⟨by rw [hq], by rw [hc, hq]⟩)⟩
  | fork p => simp only [UxSt.step] at h; repeat (split at h; skip); all_goals simp at h
  | setsid p =>
    simp only [UxSt.step] at h
    split at h
    · split at h <;> simp at h
    · simp at h
  | setpgid p q k =>
    simp only [UxSt.step] at h
    split at h
    · split at h <;> simp at h
    · simp at h
  | openTty p x n =>
    simp only [UxSt.step] at h
    split at h
    · split at h <;> simp at h
    · simp at h
  | setFg p k =>
    simp only [UxSt.step] at h
    split at h
    · split at h
      · split at h <;> simp at h
      · simp at h
    · simp at h
  | opens p x => simp only [UxSt.step] at h; split at h <;> simp at h
  | dup p x y => simp only [UxSt.step] at h; split at h <;> simp at h
  | close p x => simp only [UxSt.step] at h; split at h <;> simp at h
  | wait p q =>
    simp only [UxSt.step] at h
    split at h
    · split at h <;> simp at h
    · simp at h
  | start p d => simp only [UxSt.step] at h; split at h <;> simp at h

/-- The daemon stays in its session unless it calls `setsid` itself; nobody else who was there when it was born, except the process that forked it and only exits, is ever in that
session, or in a process group with a member of it. -/
theorem C126_session (h₁ h₂ : List UxEv) (p : Nat) (P : UxProc) (hb : Born h₁ p P) :
    (∀ P', (UxSt.boot.run (h₁ ++ h₂)).1.procs p = some P' → UxEv.setsid p ∉ h₂ → P'.session = P.session) ∧
    (∀ q Q Q', (UxSt.boot.run h₁).1.procs q = some Q → q ≠ p → Q.pc ≠ .exit2 → Q.live = true → (UxSt.boot.run (h₁ ++ h₂)).1.procs q = some Q' →
      Q'.session ≠ P.session ∧ ∀ r R, (UxSt.boot.run (h₁ ++ h₂)).1.procs r = some R → R.session = P.session → R.group ≠ Q'.group) := by
  rw [ux_run_append]
  have g1 := good_run good_boot h₁
  have g2 := good_run g1 h₂
  refine ⟨fun P' e hn => ?_, fun q Q Q' e hq hpc hl e' => ?_⟩
  · obtain ⟨P0, e0, _, _, k, _⟩ := keeps_run g1 h₂ (g1.o.g.bnd p P hb.1).1 e
    rw [hb.1] at e0; cases e0
    exact (k (by simp [hb.2, BootPc.own])).2 hn
  · have qu := g1.o.b.quiet p P hb.1 (.inr (by simp [hb.2, BootPc.mid]))
    have hσ : q ≠ P.session := by
      intro hh
      subst hh
      have hld := qu.leader Q e hl
      have : Q.pc = .fork2 := by
        cases hc : Q.pc <;> simp [hc, BootPc.leads] at hld hpc ⊢
      have := g1.t.alone _ Q e this p P hb.1 rfl
      exact hq this.symm
    have key : Q'.session ≠ P.session := by
      obtain ⟨Q0, e0, _, hs, _⟩ := keeps_run g1 h₂ (g1.o.g.bnd q Q e).1 e'
      rw [e] at e0; cases e0
      rcases hs with hs | hs
      · rw [hs]
        intro hh
        rcases g1.t.two p P hb.1 (by simp [hb.2, BootPc.mid]) q Q e hh with h | h
        · exact hq h
        · exact hσ h
      · rw [hs]; exact hσ
    exact ⟨key, fun r R er hr hh => key (by rw [← hr, g2.o.g.grp r R q Q' er e' hh])⟩

/-- Closing a terminal, its keys and the end of whoever leads its session send nothing to the daemon or to a process in its session. A signal that reaches one was sent to its own number, or to
the number of a group all of whose members are in that session. -/
theorem C126_signals (h₁ h₂ : List UxEv) (p : Nat) (P : UxProc) (hb : Born h₁ p P) (e : UxEv) (g : UxSig) (hg : g ∈ ((UxSt.boot.run (h₁ ++ h₂)).1.step e).2)
    (Q : UxProc) (hq : (UxSt.boot.run (h₁ ++ h₂)).1.procs g.to = some Q) (hs : Q.session = P.session) :
    (e = .kill g.to ∧ g.cause = .direct) ∨
    (e = .killGroup Q.group ∧ g.cause = .group Q.group ∧ ∀ r R, (UxSt.boot.run (h₁ ++ h₂)).1.procs r = some R → R.group = Q.group → R.session = P.session) := by
  rw [ux_run_append] at hg hq ⊢
  have g1 := good_run good_boot h₁
  have g2 := good_run g1 h₂
  have qu := quiet_run g1 h₂ (g1.o.b.quiet p P hb.1 (.inr (by simp [hb.2, BootPc.mid])))
  obtain ⟨Q', e', _, hc⟩ := step_signals hg
  rw [hq] at e'; cases e'
  rcases hc with hc | hc | ⟨n, hc⟩ | ⟨hc, n, hn⟩
  · exact .inl hc
  · exact .inr ⟨hc.1, hc.2, fun r R er hr => by rw [← hs]; exact g2.o.g.grp r R _ Q er hq hr⟩
  · exact absurd hc.symm (qu.fg _ Q hq hs n).2
  · rw [← hc, hs, qu.noTty] at hn; cases hn

/-- No program has to wait for the daemon: if it has ended and is still in the table, its parent is a process of the bootstrap whose next step is to exit, and when that one ends the daemon is gone.
A daemon whose parent is process 0 is gone when it ends. -/
theorem C126_no_zombie (h₁ h₂ : List UxEv) (p : Nat) (P P' : UxProc) (hb : Born h₁ p P) (e : (UxSt.boot.run (h₁ ++ h₂)).1.procs p = some P') :
    ∃ R, (UxSt.boot.run (h₁ ++ h₂)).1.procs P'.parent = some R ∧ R.live = true ∧ R.pc.free = false ∧
      (P'.live = false → (R.pc = .exit1 ∨ R.pc = .exit2) ∧ ((UxSt.boot.run (h₁ ++ h₂)).1.step (.boot P'.parent)).1.procs p = none) ∧
      (P'.live = true → R.pc = .init → ((UxSt.boot.run (h₁ ++ h₂)).1.step (.ends p)).1.procs p = none) := by
  rw [ux_run_append] at e ⊢
  have g1 := good_run good_boot h₁
  have g2 := good_run g1 h₂
  obtain ⟨P0, e0, _, _, k, _⟩ := keeps_run g1 h₂ (g1.o.g.bnd p P hb.1).1 e
  rw [hb.1] at e0; cases e0
  have ho := (k (by simp [hb.2, BootPc.own])).1
  generalize (((UxSt.boot.run h₁).1.run h₂).1) = s at *
  have hlate : P'.pc.late = true := by cases hc : P'.pc <;> simp [hc, BootPc.own, BootPc.late] at ho ⊢
  obtain ⟨R, eR, l, z, c⟩ := g2.o.r.par p P' e
  have c := c hlate
  refine ⟨R, eR, l, ?_, fun hz => ?_, fun hl hi => ?_⟩
  · rcases c with c | c | c <;> simp [c, BootPc.free]
  · have c' : R.pc = .exit1 ∨ R.pc = .exit2 := by
      rcases c with c | c
      · exact absurd c (z hz)
      · exact c
    refine ⟨c', ?_⟩
    have hne : p ≠ P'.parent := by
      intro hh
      rw [← hh, e] at eR; cases eR
      simp [hz] at l
    have : (UxSt.step s (.boot P'.parent)).1 = (s.ends P'.parent R).1 := by
      simp only [UxSt.step, eR, l, if_true, UxSt.bootStep]
      rcases c' with c' | c' <;> simp [c']
    rw [this, ends_procs, UxSt.left, if_neg hne, e]
    simp [hz]
  · have hni : P'.pc ≠ .init := by intro hh; simp [hh, BootPc.own] at ho
    have : (UxSt.step s (.ends p)).1 = (s.ends p P').1 := by
      simp [UxSt.step, e, hl, hni]
    rw [this, ends_procs, UxSt.left, if_pos rfl, eR]
    simp [hi]

/-- When the daemon begins to serve, its open files are 0, 1, 2 and 3, all of them /dev/null as it opened it itself, and nobody else has that file. -/
theorem C126_stdio (h : List UxEv) (p : Nat) (P : UxProc) (f : Nat) (hp : (UxSt.boot.run h).1.procs p = some P) (hl : P.live = true) (hpc : P.pc = .dup f 2) :
    ∃ P' D, ((UxSt.boot.run h).1.step (.boot p)).1.procs p = some P' ∧ P'.pc = .serving ∧ (∀ x, P'.fds x = if x ≤ 3 then some D else none) ∧
      ∀ q Q y, ((UxSt.boot.run h).1.step (.boot p)).1.procs q = some Q → Q.fds y = some D → q = p := by
  have g1 := good_run good_boot h
  obtain ⟨rfl, _, D, m3, _, m4, m5⟩ := g1.f.s.dup p P f 2 hp hpc hl
  have e1 : ((UxSt.boot.run h).1.step (.boot p)).1 = (UxSt.boot.run h).1.put p { P with pc := .serving, fds := fun x => if x = 2 then P.fds 3 else P.fds x } := by
    simp [UxSt.step, hp, hl, UxSt.bootStep, hpc]
  rw [e1]
  refine ⟨_, D, by rw [put_procs, if_pos rfl], rfl, fun x => ?_, fun q Q y e hy => ?_⟩
  · show (if x = 2 then P.fds 3 else P.fds x) = _
    by_cases h2 : x = 2
    · simp [h2, m3]
    · rw [if_neg h2]
      by_cases h3 : x = 3
      · simp [h3, m3]
      · by_cases h4 : x < 2
        · rw [m4.1 x h4, if_pos (by omega)]
        · rw [m4.2 x (by omega), if_neg (by omega)]
  · rw [put_procs] at e
    split at e
    · assumption
    · exact m5 q Q y e hy

/-- The daemon's open files are its own: once it serves it never has an open file that a process has which was there when it was born, nor one that belongs to a process which was forked by others. -/
theorem C126_files (h₁ h₂ : List UxEv) (p : Nat) (P P' : UxProc) (hb : Born h₁ p P) (e : (UxSt.boot.run (h₁ ++ h₂)).1.procs p = some P') (hs : P'.pc = .serving) :
    (∀ q Q Q' x y d, (UxSt.boot.run h₁).1.procs q = some Q → q ≠ p → (UxSt.boot.run (h₁ ++ h₂)).1.procs q = some Q' → P'.fds x = some d → Q'.fds y ≠ some d) ∧
    (∀ q Q' x y d, (UxSt.boot.run (h₁ ++ h₂)).1.procs q = some Q' → P'.fds x = some d → Q'.fds y = some d → Q'.line = some p) := by
  rw [ux_run_append] at *
  have g1 := good_run good_boot h₁
  have g2 := good_run g1 h₂
  have second : ∀ q Q' x y d, ((UxSt.boot.run h₁).1.run h₂).1.procs q = some Q' → P'.fds x = some d → Q'.fds y = some d → Q'.line = some p := by
    intro q Q' x y d e' hx hy
    rw [(g2.f.s.share p P' q Q' x y d e e' (by simp [hs, BootPc.free]) hx hy).2]
    exact g2.f.l.lin p P' e (by simp [hs, BootPc.own])
  refine ⟨fun q Q Q' x y d eq hne e' hx hy => ?_, second⟩
  have hl := second q Q' x y d e' hx hy
  obtain ⟨Q0, e0, l0, _⟩ := keeps_run g1 h₂ (g1.o.g.bnd q Q eq).1 e'
  rw [eq] at e0; cases e0
  exact hne (g1.f.l.lin1 p P q Q hb.1 (by simp [hb.2, BootPc.mid]) eq (by rw [← l0, hl]))

/-- `os.setsid()` is never refused in the bootstrap, whatever others have done to process groups. -/
theorem C126_setsid (h : List UxEv) (p : Nat) (P : UxProc) (hp : (UxSt.boot.run h).1.procs p = some P) (hl : P.live = true) (hpc : P.pc = .setsid) :
    ((UxSt.boot.run h).1.step (.boot p)).1.procs p = some { P with group := p, session := p, pc := .fork2 } := by
  have g1 := good_run good_boot h
  have hg : (UxSt.boot.run h).1.hasGroup p none = false := by
    rw [← Bool.not_eq_true, hasGroup_iff _ g1.o.g]
    rintro ⟨q, Q, e, hq, _⟩
    exact ((g1.o.b.sid p P hp hpc).1 q Q e).1 hq
  simp [UxSt.step, hp, hl, UxSt.bootStep, hpc, UxSt.setsid, hg, put_procs]

/-- By contrast, a process started without `daemon` is bound to its parent in all these ways: it is in the group and session of its parent, has the parent's output files as 1 and 2 (0 is a
/dev/null of its own, no other file is open), and the keys of the terminal reach it when they reach its parent. -/
theorem C126_ordinary (s : UxSt) (p : Nat) (P : UxProc) (hp : s.procs p = some P) (hl : P.live = true) (hf : P.pc.free = true) :
    ∃ C, (s.step (.start p false)).1.procs s.next = some C ∧ C.live = true ∧ C.parent = p ∧ C.group = P.group ∧ C.session = P.session ∧
      C.fds 0 = some s.files ∧ C.fds 1 = P.fds 1 ∧ C.fds 2 = P.fds 2 ∧ (∀ x, 3 ≤ x → C.fds x = none) ∧
      ∀ n, s.fg n = P.group → ⟨s.next, .key n⟩ ∈ ((s.step (.start p false)).1.step (.key n)).2 := by
  have hc : s.caller p = some P := by simp [UxSt.caller, hp, hl, hf]
  refine ⟨{ P with parent := p, pc := .user, fds := startFds P s.files false }, ?_, hl, rfl, rfl, rfl, rfl, rfl, rfl, ?_, ?_⟩
  · simp [UxSt.step, hc, UxSt.birth, put_procs]
  · intro x hx
    simp only [startFds, Bool.false_eq_true, if_false]
    rw [if_neg (by omega), if_neg (by omega)]
  · intro n hn
    simp only [UxSt.step, hc, UxSt.birth, UxSt.signal]
    simp only [UxSt.put, List.mem_filterMap, List.mem_range]
    exact ⟨s.next, Nat.lt_succ_self _, by simp [hl, hn]⟩

/-- ... and so in every history: when the parent of an ordinary child is in the foreground of a terminal, a key of the terminal such as ctrl-c reaches the child. -/
theorem C126_ordinary_key (h : List UxEv) (p : Nat) (P : UxProc) (hp : (UxSt.boot.run h).1.procs p = some P) (hl : P.live = true) (hf : P.pc.free = true) (n : Nat)
    (hn : (UxSt.boot.run h).1.fg n = P.group) : ⟨(UxSt.boot.run h).1.next, .key n⟩ ∈ (UxSt.boot.run (h ++ [.start p false, .key n])).2 := by
  obtain ⟨C, -, -, -, -, -, -, -, -, -, hk⟩ := C126_ordinary _ p P hp hl hf
  have happ : ∀ (h₁ h₂ : List UxEv) (s : UxSt), (s.run (h₁ ++ h₂)).2 = (s.run h₁).2 ++ ((s.run h₁).1.run h₂).2 := by
    intro h₁
    induction h₁ with
    | nil => intro h₂ s; rfl
    | cons e h₁ ih => intro h₂ s; simp only [List.cons_append, UxSt.run, ih, List.append_assoc]
  rw [happ]
  refine List.mem_append_right _ ?_
  simp only [UxSt.run, List.append_nil, List.mem_append]
  exact Or.inr (hk n hn)

/-- When the leader of a session ends, exactly the living processes of the foreground group of its terminal get a signal, the terminal is free, and other sessions keep theirs. A daemon is in no
session with such a terminal (C126_session), so the end of whoever started it does not reach it. -/
theorem C126_leader (s : UxSt) (p n : Nat) (P : UxProc) (hp : s.procs p = some P) (hl : P.live = true) (hi : P.pc ≠ .init) (hs : P.session = p) (hc : s.ctty p = some n) :
    (s.step (.ends p)).1.ctty p = none ∧ (∀ σ, σ ≠ p → (s.step (.ends p)).1.ctty σ = s.ctty σ) ∧
    ∀ x, x ∈ (s.step (.ends p)).2 ↔ x.cause = .leader p ∧ x.to < s.next ∧ ∃ Q, s.procs x.to = some Q ∧ Q.live = true ∧ Q.group = s.fg n := by
  have e : s.step (.ends p) = ({ s with procs := s.left p P, ctty := fun σ => if σ = p then none else s.ctty σ }, s.signal (.leader p) fun _ Q => Q.group = s.fg n) := by
    simp [UxSt.step, hp, hl, hi, UxSt.ends, hc, hs]
  rw [e]
  refine ⟨by simp, fun σ hσ => by simp [hσ], fun x => ?_⟩
  obtain ⟨q, c⟩ := x
  simp only [UxSt.signal, List.mem_filterMap, List.mem_range]
  constructor
  · rintro ⟨r, hr, h⟩
    split at h
    · rename_i Q hQ
      split at h
      · rename_i hg
        simp only [Option.some.injEq, UxSig.mk.injEq] at h
        obtain ⟨rfl, rfl⟩ := h
        simp only [Bool.and_eq_true, decide_eq_true_eq] at hg
        exact ⟨rfl, hr, Q, hQ, hg.1, hg.2⟩
      · cases h
    · cases h
  · rintro ⟨rfl, hr, Q, hQ, h1, h2⟩
    exact ⟨q, hr, by simp [hQ, h1, h2]⟩

/-- A terminal becomes the controlling terminal of the leader of a session without one, if no session has it; its foreground is then the leader's group. Otherwise nothing changes but the
open files. -/
theorem C126_tty (s : UxSt) (p x n : Nat) (P : UxProc) (hp : s.procs p = some P) (hl : P.live = true) (hf : P.pc.free = true) :
    ((P.session = p ∧ s.ctty p = none ∧ ∀ σ < s.next, s.ctty σ ≠ some n) → (s.step (.openTty p x n)).1.ctty p = some n ∧ (s.step (.openTty p x n)).1.fg n = P.group) ∧
    (¬ (P.session = p ∧ s.ctty p = none ∧ ∀ σ < s.next, s.ctty σ ≠ some n) → (s.step (.openTty p x n)).1.ctty = s.ctty ∧ (s.step (.openTty p x n)).1.fg = s.fg) := by
  have hc : s.caller p = some P := by simp [UxSt.caller, hp, hl, hf]
  constructor
  · intro h
    simp only [UxSt.step, hc, if_pos h]
    simp
  · intro h
    simp only [UxSt.step, hc, if_neg h]
    exact ⟨rfl, rfl⟩

theorem boot_fork {s : UxSt} {p P} (hp : s.procs p = some P) (hl : P.live = true) (hpc : P.pc = .start ∨ P.pc = .fork2) :
    ∃ c C, (s.step (.boot p)).1.procs c = some C ∧ C.live = true ∧ C.pc = (if P.pc = .start then .setsid else .open_) := by
  refine ⟨s.next, ?_⟩
  rcases hpc with hpc | hpc
  · exact ⟨{ P with parent := p, pc := .setsid, line := P.line }, by simp [UxSt.step, hp, hl, UxSt.bootStep, hpc, fork_procs], hl, by simp [hpc]⟩
  · exact ⟨{ P with parent := p, pc := .open_, line := some s.next }, by simp [UxSt.step, hp, hl, UxSt.bootStep, hpc, fork_procs], hl, by simp [hpc]⟩

/-- From any state in which a daemon was launched, its bootstrap can run to the end: it becomes a daemon that serves. -/
theorem C126_starts (h : List UxEv) (p : Nat) (P : UxProc) (hp : (UxSt.boot.run h).1.procs p = some P) (hl : P.live = true) (hpc : P.pc = .start) :
    ∃ h₁ h₂ d D D', Born (h ++ h₁) d D ∧ (UxSt.boot.run (h ++ h₁ ++ h₂)).1.procs d = some D' ∧ D'.pc = .serving ∧ D'.live = true := by
  have run1 : ∀ h e, (UxSt.boot.run (h ++ [e])).1 = ((UxSt.boot.run h).1.step e).1 := by
    intro h e
    rw [ux_run_append]; rfl
  obtain ⟨c, C, hc, lc, pcc⟩ := boot_fork hp hl (.inl hpc)
  rw [if_pos hpc] at pcc
  rw [← run1] at hc
  have h2 := C126_setsid (h ++ [.boot p]) c C hc lc pcc
  rw [← run1] at h2
  obtain ⟨d, D, hd, ld, pcd⟩ := boot_fork h2 lc (.inr rfl)
  rw [← run1] at hd
  simp only [reduceCtorEq, if_false] at pcd
  have st : ∀ h P, (UxSt.boot.run h).1.procs d = some P → P.live = true → P.pc.mid = true → ∃ P', (UxSt.boot.run (h ++ [.boot d])).1.procs d = some P' ∧ P'.live = true ∧
      P'.pc = (match P.pc with | .dup f k => if k < 2 then .dup f (k + 1) else .serving | _ => .dup (freeFd P.fds) 0) := by
    intro h P hp hl hm
    rw [run1]
    cases hpc : P.pc <;> simp only [hpc, BootPc.mid, Bool.false_eq_true] at hm
    · exact ⟨{ P with pc := .dup (freeFd P.fds) 0, fds := fun x => if x = freeFd P.fds then some (UxSt.boot.run h).1.files else P.fds x },
        by simp [UxSt.step, hp, hl, UxSt.bootStep, hpc, put_procs], hl, rfl⟩
    · rename_i f k
      exact ⟨{ P with pc := if k < 2 then .dup f (k + 1) else .serving, fds := fun x => if x = k then P.fds f else P.fds x },
        by simp [UxSt.step, hp, hl, UxSt.bootStep, hpc, put_procs], hl, rfl⟩
  obtain ⟨P1, e1, l1, p1⟩ := st _ D hd ld (by simp [pcd, BootPc.mid])
  simp only [pcd] at p1
  obtain ⟨P2, e2, l2, p2⟩ := st _ P1 e1 l1 (by simp [p1, BootPc.mid])
  simp only [p1] at p2
  obtain ⟨P3, e3, l3, p3⟩ := st _ P2 e2 l2 (by simp [p2, BootPc.mid])
  simp only [p2] at p3
  obtain ⟨P4, e4, l4, p4⟩ := st _ P3 e3 l3 (by simp [p3, BootPc.mid])
  simp only [p3] at p4
  refine ⟨[.boot p, .boot c, .boot c], [.boot d, .boot d, .boot d, .boot d], d, D, P4, ⟨?_, pcd⟩, ?_, by simpa using p4, l4⟩
  · simpa using hd
  · simpa using e4

namespace Ex
/-- A login program (1) gets a terminal and starts a shell job: process 2 in its own group, in the foreground, which starts an ordinary child (3) and a daemon: 4, then 5, then 6. -/
def daemonStart : List UxEv := [.openTty 1 0 7, .fork 1, .setpgid 1 2 2, .setFg 1 2, .opens 2 1, .opens 2 2, .start 2 false, .start 2 true, .boot 4, .boot 4, .wait 2 4, .boot 5, .boot 5]
end Ex

example : (UxSt.boot.run Ex.daemonStart).1.next = 7 := by decide +kernel
/-- process 6 is born in the session of process 5 -/
example : ((UxSt.boot.run Ex.daemonStart).1.procs 6).map (fun P => (P.pc, P.parent, P.group, P.session)) = some (.open_, 5, 5, 5) := by decide +kernel
/-- ctrl-c reaches the starter and its ordinary child, not the daemon; so does closing the terminal, for the login program too -/
example : (UxSt.boot.run (Ex.daemonStart ++ [.boot 6, .boot 6, .boot 6, .boot 6, .boot 5, .key 7, .hangup 7])).2 =
    [⟨2, .key 7⟩, ⟨3, .key 7⟩, ⟨1, .hangup 7⟩, ⟨2, .hangup 7⟩, ⟨3, .hangup 7⟩] := by decide +kernel
/-- the ordinary child shares the output of its parent and stays in the table until its parent waits, the daemon has only /dev/null and vanishes -/
example : (fun s : UxSt => [2, 3, 6].map fun q => (s.procs q).map fun P => [P.fds 0, P.fds 1, P.fds 2])
    (UxSt.boot.run (Ex.daemonStart ++ [.boot 6, .boot 6, .boot 6, .boot 6, .boot 5])).1 =
    [some [some 0, some 1, some 2], some [some 3, some 1, some 2], some [some 5, some 5, some 5]] := by decide +kernel
example : (let s := (UxSt.boot.run (Ex.daemonStart ++ [.boot 6, .boot 6, .boot 6, .boot 6, .boot 5, .ends 6, .ends 3])).1
    ((s.procs 3).map (·.live), (s.procs 6).map (·.live))) = (some false, none) := by decide +kernel
/-- a daemon may still be killed by its number, and by that of its own group -/
example : (UxSt.boot.run (Ex.daemonStart ++ [.boot 6, .boot 6, .boot 6, .boot 6, .boot 5, .kill 6, .killGroup 5, .killGroup 2])).2 =
    [⟨6, .direct⟩, ⟨6, .group 5⟩, ⟨2, .group 2⟩, ⟨3, .group 2⟩] := by decide +kernel

namespace Ex

/-! ## The theorems on these cases -/

/-- A process of a history. -/
def proc (h : List UxEv) (p : Nat) (hs : ((UxSt.boot.run h).1.procs p).isSome = true) : UxProc := ((UxSt.boot.run h).1.procs p).get hs
theorem proc_get (h : List UxEv) (p : Nat) (hs : ((UxSt.boot.run h).1.procs p).isSome = true) : (UxSt.boot.run h).1.procs p = some (proc h p hs) := (Option.some_get hs).symm

theorem daemon_born : Born daemonStart 6 (proc daemonStart 6 (by decide +kernel)) := ⟨proc_get _ _ _, by decide +kernel⟩
/-- Process 6 serves; process 5 has ended. -/
def daemonServes : List UxEv := [.boot 6, .boot 6, .boot 6, .boot 6, .boot 5]

/-- the session of the daemon and of the process that started it -/
example := (C126_session daemonStart daemonServes 6 _ daemon_born).1 _ (proc_get _ 6 (by decide +kernel)) (by decide)
example := (C126_session daemonStart daemonServes 6 _ daemon_born).2 2 _ _ (proc_get _ 2 (by decide +kernel)) (by decide) (by decide +kernel) (by decide +kernel) (proc_get _ 2 (by decide +kernel))
example := C126_signals daemonStart daemonServes 6 _ daemon_born (.killGroup 5) ⟨6, .group 5⟩ (by decide +kernel) _ (proc_get _ 6 (by decide +kernel)) (by decide +kernel)
example := C126_no_zombie daemonStart daemonServes 6 _ _ daemon_born (proc_get _ 6 (by decide +kernel))
example := C126_stdio (daemonStart ++ [.boot 6, .boot 6, .boot 6]) 6 _ 3 (proc_get _ 6 (by decide +kernel)) (by decide +kernel) (by decide +kernel)
example := C126_files daemonStart daemonServes 6 _ _ daemon_born (proc_get _ 6 (by decide +kernel)) (by decide +kernel)
example := C126_ordinary (UxSt.boot.run (daemonStart.take 6)).1 2 _ (proc_get _ 2 (by decide +kernel)) (by decide +kernel) (by decide +kernel)
example := C126_setsid (daemonStart.take 11) 5 _ (proc_get _ 5 (by decide +kernel)) (by decide +kernel) (by decide +kernel)
example := C126_starts (daemonStart.take 8) 4 _ (proc_get _ 4 (by decide +kernel)) (by decide +kernel) (by decide +kernel)

end Ex

example : ⟨4, .key 7⟩ ∈ (UxSt.boot.run (Ex.daemonStart.take 7 ++ [.start 2 false, .key 7])).2 :=
  C126_ordinary_key (Ex.daemonStart.take 7) 2 _ (by rfl) rfl rfl 7 (by decide +kernel)
/-- the login program ends: the job in the foreground is told, the terminal is free -/
example := C126_leader (UxSt.boot.run Ex.daemonStart).1 1 7 _ (by rfl) rfl (by decide) rfl (by decide +kernel)
example : (UxSt.boot.run (Ex.daemonStart ++ [.ends 1])).2 = [⟨2, .leader 1⟩, ⟨3, .leader 1⟩] := by decide +kernel
example := (C126_tty UxSt.boot 1 0 7 _ (by rfl) rfl rfl).1 (by decide +kernel)

end Verif
