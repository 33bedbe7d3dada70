import Verif.Proof.DaemonFiles
/-!
# The session of a daemon has no other members at first
-/
namespace Verif

structure UxSt.InvT (s : UxSt) : Prop where
  alone : ∀ p P, s.procs p = some P → P.pc = .fork2 → ∀ q Q, s.procs q = some Q → Q.session = p → q = p
  two : ∀ p P, s.procs p = some P → P.pc.mid = true → ∀ q Q, s.procs q = some Q → Q.session = P.session → q = p ∨ q = P.session

/-- Nobody enters the session of a process that leads or is becoming a daemon. -/
def UxSt.TSub (s s' : UxSt) : Prop := ∀ q Q', s'.procs q = some Q' →
  (∃ Q0, s.procs q = some Q0 ∧ Q'.session = Q0.session ∧ (Q'.pc = .fork2 → Q0.pc = .fork2) ∧ (Q'.pc.mid = true → Q0.pc.mid = true)) ∨
  (Q'.pc ≠ .fork2 ∧ Q'.pc.mid = false ∧ ∃ p P, s.procs p = some P ∧ P.live = true ∧ P.pc.leads = false ∧ P.pc.mid = false ∧ Q'.session = P.session)

theorem leads_fork2 {c : BootPc} (h : c = .fork2) : c.leads = true := by subst h; rfl

theorem TSub.invT {s s' : UxSt} (ho : s.Ok) (h : s.InvT) (r : s.TSub s') : s'.InvT where
  alone p P e hp q Q e' hq := by
    rcases r p P e with ⟨P0, e0, h1, h2, _⟩ | ⟨h1, _⟩
    · have hs := ho.b.ses p P0 e0 (leads_fork2 (h2 hp))
      rcases r q Q e' with ⟨Q0, e0', k1, _⟩ | ⟨_, _, p1, P1, e1, l1, k1, k2, k3⟩
      · exact h.alone p P0 e0 (h2 hp) q Q0 e0' (by rw [← k1, hq])
      · have := h.alone p P0 e0 (h2 hp) p1 P1 e1 (by rw [← k3, hq])
        subst this
        rw [e0] at e1; cases e1
        rw [leads_fork2 (h2 hp)] at k1; cases k1
    · exact absurd hp h1
  two p P e hp q Q e' hq := by
    rcases r p P e with ⟨P0, e0, h1, _, h2⟩ | ⟨_, h1, _⟩
    · have qu := ho.b.quiet p P0 e0 (.inr (h2 hp))
      rw [h1] at hq ⊢
      rcases r q Q e' with ⟨Q0, e0', k1, _⟩ | ⟨_, _, p1, P1, e1, l1, k1, k2, k3⟩
      · exact h.two p P0 e0 (h2 hp) q Q0 e0' (by rw [← k1, hq])
      · rcases h.two p P0 e0 (h2 hp) p1 P1 e1 (by rw [← k3, hq]) with hh | hh
        · subst hh
          rw [e0] at e1; cases e1
          rw [h2 hp] at k2; cases k2
        · rw [hh] at e1
          have := qu.leader P1 e1 l1
          rw [this] at k1; cases k1
    · rw [hp] at h1; cases h1

theorem apart_setsid {s s' : UxSt} (ho : s.Ok) (h : s.InvT) {p P pc} (hp : s.procs p = some P) (hl : P.live = true)
    (hpc : (P.pc.free = true ∧ pc = P.pc) ∨ (P.pc = .setsid ∧ pc = .fork2)) (e : s.setsid p P pc = some s') : s'.InvT := by
  have hnl : P.pc.leads = false ∧ P.pc.mid = false := by
    rcases hpc with ⟨h1, _⟩ | ⟨h1, _⟩
    · rw [free_eq] at h1; rcases h1 with h1 | h1 <;> simp [h1, BootPc.leads, BootPc.mid]
    · simp [h1, BootPc.leads, BootPc.mid]
  obtain ⟨_, rfl⟩ := setsid_some ho.g e
  have cs : ∀ q Q, ({ s.put p { P with group := p, session := p, pc := pc } with ctty := fun σ => if σ = p then none else s.ctty σ } : UxSt).procs q = some Q →
      (q = p ∧ Q = { P with group := p, session := p, pc := pc }) ∨ (q ≠ p ∧ s.procs q = some Q) := by
    intro q Q e
    simp only [put_procs] at e
    split at e
    · rename_i hq; exact .inl ⟨hq, by simpa using e.symm⟩
    · rename_i hq; exact .inr ⟨hq, e⟩
  constructor
  · intro p1 P1 e1 h1 q Q e2 h2
    rcases cs q Q e2 with ⟨i1, i2⟩ | ⟨i1, i2⟩
    · subst i2; rw [i1]; exact h2
    · rcases cs p1 P1 e1 with ⟨j1, j2⟩ | ⟨j1, j2⟩
      · subst j2
        rcases hpc with ⟨k1, k2⟩ | ⟨k1, k2⟩
        · simp only [k2] at h1
          rw [leads_fork2 h1] at hnl; cases hnl.1
        · rw [j1] at h2
          exact absurd h2 ((ho.b.sid p P hp k1).1 q Q i2).2
      · exact h.alone p1 P1 j2 h1 q Q i2 h2
  · intro p1 P1 e1 h1 q Q e2 h2
    rcases cs p1 P1 e1 with ⟨j1, j2⟩ | ⟨j1, j2⟩
    · subst j2
      rcases hpc with ⟨k1, k2⟩ | ⟨k1, k2⟩
      · simp only [k2] at h1
        rw [h1] at hnl; cases hnl.2
      · simp [k2, BootPc.mid] at h1
    · rcases cs q Q e2 with ⟨i1, i2⟩ | ⟨i1, i2⟩
      · subst i2; right; rw [i1]; exact h2
      · exact h.two p1 P1 j2 h1 q Q i2 h2

theorem tsub_change {s s' : UxSt} {p P} (hp : s.procs p = some P) (P' : UxProc) (hs : ∀ q, s'.procs q = if q = p then some P' else s.procs q)
    (se : P'.session = P.session) (h1 : P'.pc = .fork2 → P.pc = .fork2) (h2 : P'.pc.mid = true → P.pc.mid = true) : s.TSub s' := by
  intro q Q e
  rw [hs] at e
  split at e
  · rename_i hq
    subst hq
    cases e
    exact .inl ⟨P, hp, se, h1, h2⟩
  · exact .inl ⟨Q, e, rfl, id, id⟩

theorem tsub_birth {s s' : UxSt} {p P} (hp : s.procs p = some P) (hl : P.live = true) (pc : BootPc) (C : UxProc)
    (hs : ∀ q, s'.procs q = if q = s.next then some C else if q = p then some { P with pc := pc } else s.procs q)
    (h1 : pc = .fork2 → P.pc = .fork2) (h2 : pc.mid = true → P.pc.mid = true) (h3 : P.pc.leads = false) (h4 : P.pc.mid = false) (se : C.session = P.session)
    (c1 : C.pc ≠ .fork2) (c2 : C.pc.mid = false) : s.TSub s' := by
  intro q Q e
  rw [hs] at e
  split at e
  · cases e
    exact .inr ⟨c1, c2, p, P, hp, hl, h3, h4, se⟩
  · split at e
    · rename_i hq
      subst hq
      cases e
      exact .inl ⟨P, hp, rfl, h1, h2⟩
    · exact .inl ⟨Q, e, rfl, id, id⟩

theorem tsub_ends {s : UxSt} {p P} (hp : s.procs p = some P) : s.TSub (s.ends p P).1 := by
  intro q Q' e
  rcases ends_cases e with ⟨rfl, rfl, _⟩ | ⟨h1, Q, h2, ⟨_, rfl⟩ | ⟨_, h4, rfl⟩⟩
  · exact .inl ⟨P, hp, rfl, id, id⟩
  · exact .inl ⟨Q', h2, rfl, id, id⟩
  · exact .inl ⟨Q, h2, rfl, id, id⟩

theorem apart_fork2 {s : UxSt} (ho : s.Ok) (h : s.InvT) {p P} (hp : s.procs p = some P) (hl : P.live = true) (hpc : P.pc = .fork2) (line : Option Nat) :
    (s.fork p P .exit2 .open_ line).InvT := by
  have hse := ho.b.ses p P hp (leads_fork2 hpc)
  have al := h.alone p P hp hpc
  have cs : ∀ q Q, (s.fork p P .exit2 .open_ line).procs q = some Q →
      (q = s.next ∧ Q = { P with parent := p, pc := .open_, line := line }) ∨ (q = p ∧ Q = { P with pc := .exit2 }) ∨ (q ≠ p ∧ s.procs q = some Q) := by
    intro q Q e
    rw [fork_procs] at e
    split at e
    · rename_i hq; exact .inl ⟨hq, by simpa using e.symm⟩
    · split at e
      · rename_i hq; exact .inr (.inl ⟨hq, by simpa using e.symm⟩)
      · rename_i hq; exact .inr (.inr ⟨hq, e⟩)
  have other : ∀ p1 P1, s.procs p1 = some P1 → P1.pc.mid = true → P1.session ≠ p := by
    intro p1 P1 e1 hm hh
    have := al p1 P1 e1 hh
    subst this
    rw [hp] at e1; cases e1
    simp [hpc, BootPc.mid] at hm
  constructor
  · intro p1 P1 e1 h1 q Q e2 h2
    rcases cs p1 P1 e1 with ⟨_, rfl⟩ | ⟨_, rfl⟩ | ⟨j1, j2⟩
    · simp at h1
    · simp at h1
    · rcases cs q Q e2 with ⟨_, rfl⟩ | ⟨_, rfl⟩ | ⟨_, i2⟩
      · exact absurd (by rw [← h2]; exact hse) j1
      · exact absurd (by rw [← h2]; exact hse) j1
      · exact h.alone p1 P1 j2 h1 q Q i2 h2
  · intro p1 P1 e1 h1 q Q e2 h2
    rcases cs p1 P1 e1 with ⟨j1, rfl⟩ | ⟨_, rfl⟩ | ⟨j1, j2⟩
    · simp only [hse] at h2 ⊢
      rcases cs q Q e2 with ⟨i1, rfl⟩ | ⟨i1, rfl⟩ | ⟨_, i2⟩
      · left; rw [i1, j1]
      · right; exact i1
      · right; exact al q Q i2 h2
    · simp [BootPc.mid] at h1
    · have hne := other p1 P1 j2 h1
      rcases cs q Q e2 with ⟨i1, rfl⟩ | ⟨i1, rfl⟩ | ⟨_, i2⟩
      · exact absurd (by rw [← h2]; exact hse) hne
      · exact absurd (by rw [← h2]; exact hse) hne
      · exact h.two p1 P1 j2 h1 q Q i2 h2

theorem apart_boot {s : UxSt} (ho : s.Ok) (h : s.InvT) {p P} (hp : s.procs p = some P) (hl : P.live = true) : (s.bootStep p P).1.InvT := by
  cases hpc : P.pc with
  | user => simp only [UxSt.bootStep, hpc]; exact h
  | init => simp only [UxSt.bootStep, hpc]; exact h
  | serving => simp only [UxSt.bootStep, hpc]; exact h
  | start =>
    simp only [UxSt.bootStep, hpc]
    refine TSub.invT ho h (tsub_birth hp hl .exit1 { P with parent := p, pc := .setsid, line := P.line } (fun q => by rw [fork_procs]) ?_ ?_ ?_ ?_ rfl ?_ ?_) <;>
      simp [hpc, BootPc.leads, BootPc.mid]
  | exit1 => simp only [UxSt.bootStep, hpc]; exact TSub.invT ho h (tsub_ends hp)
  | exit2 => simp only [UxSt.bootStep, hpc]; exact TSub.invT ho h (tsub_ends hp)
  | setsid =>
    simp only [UxSt.bootStep, hpc]
    split
    · rename_i s' hs; exact apart_setsid ho h hp hl (.inr ⟨hpc, rfl⟩) hs
    · exact TSub.invT ho h (tsub_ends hp)
  | fork2 =>
    simp only [UxSt.bootStep, hpc]
    exact apart_fork2 ho h hp hl hpc _
  | open_ =>
    simp only [UxSt.bootStep, hpc]
    refine TSub.invT ho h (tsub_change hp { P with pc := .dup (freeFd P.fds) 0, fds := fun x => if x = freeFd P.fds then some s.files else P.fds x } (fun q => rfl) rfl ?_ ?_) <;>
      simp [hpc, BootPc.mid]
  | dup f k =>
    simp only [UxSt.bootStep, hpc]
    refine TSub.invT ho h (tsub_change hp { P with pc := if k < 2 then .dup f (k + 1) else .serving, fds := fun x => if x = k then P.fds f else P.fds x } (fun q => rfl) rfl ?_ ?_) <;>
      by_cases hk : k < 2 <;> simp [hpc, hk, BootPc.mid]

theorem apart_step {s : UxSt} (ho : s.Ok) (h : s.InvT) (e : UxEv) : (s.step e).1.InvT := by
  have opens : ∀ p P fds n, s.caller p = some P → ({ s.put p { P with fds := fds } with files := n } : UxSt).InvT := by
    intro p P fds n hc
    obtain ⟨hp, hl, hf⟩ := caller_some hc
    exact TSub.invT ho h (tsub_change hp { P with fds := fds } (fun q => rfl) rfl id id)
  cases e with
  | fork p =>
    simp only [UxSt.step]
    split
    · rename_i P hc
      obtain ⟨hp, hl, hf⟩ := caller_some hc
      rw [free_eq] at hf
      refine TSub.invT ho h (tsub_birth hp hl P.pc { P with parent := p, pc := .user, line := P.line } (fun q => by rw [fork_procs]) id id ?_ ?_ rfl ?_ ?_) <;>
        rcases hf with e | e <;> simp [e, BootPc.mid, BootPc.leads]
    · exact h
  | setsid p =>
    simp only [UxSt.step]
    split
    · rename_i P hc
      obtain ⟨hp, hl, hf⟩ := caller_some hc
      split
      · rename_i s' hs
        exact apart_setsid ho h hp hl (.inl ⟨hf, rfl⟩) hs
      · exact h
    · exact h
  | setpgid p q g =>
    simp only [UxSt.step]
    split
    · rename_i P Q hc hq
      split
      · exact TSub.invT ho h (tsub_change hq { Q with group := g } (fun q => rfl) rfl id id)
      · exact h
    · exact h
  | openTty p x n =>
    simp only [UxSt.step]
    split
    · rename_i P hc
      have k := opens p P (fun y => if y = x then some s.files else P.fds y) (s.files + 1) hc
      split
      · exact ⟨k.alone, k.two⟩
      · exact k
    · exact h
  | setFg p g =>
    simp only [UxSt.step]
    split
    · split
      · split
        · exact ⟨h.alone, h.two⟩
        · exact h
      · exact h
    · exact h
  | opens p x =>
    simp only [UxSt.step]
    split
    · rename_i P hc; exact opens p P _ _ hc
    · exact h
  | dup p x y =>
    simp only [UxSt.step]
    split
    · rename_i P hc; exact opens p P _ s.files hc
    · exact h
  | close p x =>
    simp only [UxSt.step]
    split
    · rename_i P hc; exact opens p P _ s.files hc
    · exact h
  | ends p =>
    simp only [UxSt.step]
    split
    · rename_i P hp
      split
      · exact TSub.invT ho h (tsub_ends hp)
      · exact h
    · exact h
  | wait p q =>
    simp only [UxSt.step]
    split
    · split
      · refine TSub.invT ho h fun t T e => ?_
        simp only at e
        split at e
        · cases e
        · exact .inl ⟨T, e, rfl, id, id⟩
      · exact h
    · exact h
  | start p daemon =>
    simp only [UxSt.step]
    split
    · rename_i P hc
      obtain ⟨hp, hl, hf⟩ := caller_some hc
      rw [free_eq] at hf
      refine TSub.invT ho h (tsub_birth hp hl P.pc { P with parent := p, pc := if daemon then .start else .user, fds := startFds P s.files daemon } (fun q => ?_) id id ?_ ?_ rfl ?_ ?_)
      · simp only [UxSt.birth, put_procs]
        split
        · rfl
        · split
          · rename_i hh; rw [hh, hp]
          · rfl
      · rcases hf with e | e <;> simp [e, BootPc.leads]
      · rcases hf with e | e <;> simp [e, BootPc.mid]
      · cases daemon <;> simp
      · cases daemon <;> rfl
    · exact h
  | boot p =>
    simp only [UxSt.step]
    split
    · rename_i P hp
      split
      · rename_i hl
        exact apart_boot ho h hp hl
      · exact h
    · exact h
  | hangup n => exact h
  | key n => exact h
  | kill q => exact h
  | killGroup g => exact h
end Verif
