import Verif.Proof.DaemonApart
/-!
# One process through a history
-/
namespace Verif

/-- What an event does to a process that exists: it may vanish; its line stays; its session stays unless it calls `setsid`; a daemon stays one. -/
def UxSt.Keeps (s s' : UxSt) (e : UxEv) : Prop := s.next ≤ s'.next ∧ ∀ q Q', q < s.next → s'.procs q = some Q' → ∃ Q, s.procs q = some Q ∧ Q'.line = Q.line ∧
  (Q'.session = Q.session ∨ (Q'.session = q ∧ (e = .setsid q ∨ Q.pc = .setsid))) ∧ (Q.pc.own = true → Q'.pc.own = true) ∧ (Q.pc = .serving → Q'.pc = .serving)

theorem keeps_refl (s : UxSt) (e) : s.Keeps s e := ⟨Nat.le_refl _, fun _ Q _ h => ⟨Q, h, rfl, .inl rfl, id, id⟩⟩

theorem keeps_change {s s' : UxSt} {e p P} (hp : s.procs p = some P) (P' : UxProc) (hs : ∀ q, s'.procs q = if q = p then some P' else s.procs q) (hn : s'.next = s.next)
    (hl : P'.line = P.line) (se : P'.session = P.session ∨ (P'.session = p ∧ (e = .setsid p ∨ P.pc = .setsid))) (h1 : P.pc.own = true → P'.pc.own = true)
    (h2 : P.pc = .serving → P'.pc = .serving) : s.Keeps s' e := by
  refine ⟨by omega, fun q Q _ h => ?_⟩
  rw [hs] at h
  split at h
  · rename_i hq
    subst hq
    cases h
    exact ⟨P, hp, hl, se, h1, h2⟩
  · exact ⟨Q, h, rfl, .inl rfl, id, id⟩

theorem keeps_birth {s s' : UxSt} {e p P} (hp : s.procs p = some P) (pc : BootPc) (C : UxProc)
    (hs : ∀ q, s'.procs q = if q = s.next then some C else if q = p then some { P with pc := pc } else s.procs q) (hn : s'.next = s.next + 1)
    (h1 : P.pc.own = true → pc.own = true) (h2 : P.pc = .serving → pc = .serving) : s.Keeps s' e := by
  refine ⟨by omega, fun q Q hb h => ?_⟩
  rw [hs, if_neg (by omega)] at h
  split at h
  · rename_i hq
    subst hq
    cases h
    exact ⟨P, hp, rfl, .inl rfl, h1, h2⟩
  · exact ⟨Q, h, rfl, .inl rfl, id, id⟩

theorem keeps_ends {s : UxSt} {e p P} (hp : s.procs p = some P) : s.Keeps (s.ends p P).1 e := by
  refine ⟨by rw [(ends_next s p P).1]; omega, fun q Q' _ h => ?_⟩
  rcases ends_cases h with ⟨rfl, rfl, _⟩ | ⟨h1, Q, h2, ⟨_, rfl⟩ | ⟨_, h4, rfl⟩⟩
  · exact ⟨P, hp, rfl, .inl rfl, id, id⟩
  · exact ⟨Q', h2, rfl, .inl rfl, id, id⟩
  · exact ⟨Q, h2, rfl, .inl rfl, id, id⟩

theorem keeps_setsid {s s' : UxSt} {e p P pc} (hg : s.InvG) (hp : s.procs p = some P) (hpc : (e = .setsid p ∧ pc = P.pc) ∨ (P.pc = .setsid)) (h : s.setsid p P pc = some s') :
    s.Keeps s' e := by
  obtain ⟨_, rfl⟩ := setsid_some hg h
  refine keeps_change hp { P with group := p, session := p, pc := pc } (fun q => rfl) rfl rfl (.inr ⟨rfl, ?_⟩) ?_ ?_
  · rcases hpc with hh | hh
    · exact .inl hh.1
    · exact .inr hh
  · rcases hpc with hh | hh
    · rw [hh.2]; exact id
    · simp [hh, BootPc.own]
  · rcases hpc with hh | hh
    · rw [hh.2]; exact id
    · simp [hh]

theorem keeps_boot {s : UxSt} {e p P} (hg : s.InvG) (hp : s.procs p = some P) : s.Keeps (s.bootStep p P).1 e := by
  cases hpc : P.pc with
  | user => simp only [UxSt.bootStep, hpc]; exact keeps_refl s e
  | init => simp only [UxSt.bootStep, hpc]; exact keeps_refl s e
  | serving => simp only [UxSt.bootStep, hpc]; exact keeps_refl s e
  | start =>
    simp only [UxSt.bootStep, hpc]
    refine keeps_birth hp .exit1 { P with parent := p, pc := .setsid, line := P.line } (fun q => by rw [fork_procs]) rfl ?_ ?_ <;> simp [hpc, BootPc.own]
  | exit1 => simp only [UxSt.bootStep, hpc]; exact keeps_ends hp
  | exit2 => simp only [UxSt.bootStep, hpc]; exact keeps_ends hp
  | setsid =>
    simp only [UxSt.bootStep, hpc]
    split
    · rename_i s' hs; exact keeps_setsid hg hp (.inr hpc) hs
    · exact keeps_ends hp
  | fork2 =>
    simp only [UxSt.bootStep, hpc]
    refine keeps_birth hp .exit2 { P with parent := p, pc := .open_, line := some s.next } (fun q => by rw [fork_procs]) rfl ?_ ?_ <;> simp [hpc, BootPc.own]
  | open_ =>
    simp only [UxSt.bootStep, hpc]
    refine keeps_change hp { P with pc := .dup (freeFd P.fds) 0, fds := fun x => if x = freeFd P.fds then some s.files else P.fds x } (fun q => rfl) rfl rfl (.inl rfl) ?_ ?_ <;>
      simp [hpc, BootPc.own]
  | dup f k =>
    simp only [UxSt.bootStep, hpc]
    refine keeps_change hp { P with pc := if k < 2 then .dup f (k + 1) else .serving, fds := fun x => if x = k then P.fds f else P.fds x } (fun q => rfl) rfl rfl (.inl rfl) ?_ ?_ <;>
      by_cases hk : k < 2 <;> simp [hpc, hk, BootPc.own]

theorem keeps_step {s : UxSt} (hg : s.InvG) (e : UxEv) : s.Keeps (s.step e).1 e := by
  have opens : ∀ p P fds n, s.caller p = some P → s.Keeps ({ s.put p { P with fds := fds } with files := n } : UxSt) e := by
    intro p P fds n hc
    exact keeps_change (caller_some hc).1 { P with fds := fds } (fun q => rfl) rfl rfl (.inl rfl) id id
  cases e with
  | fork p =>
    simp only [UxSt.step]
    split
    · rename_i P hc
      exact keeps_birth (caller_some hc).1 P.pc { P with parent := p, pc := .user, line := P.line } (fun q => by rw [fork_procs]) rfl id id
    · exact keeps_refl s _
  | setsid p =>
    simp only [UxSt.step]
    split
    · rename_i P hc
      split
      · rename_i s' hs
        exact keeps_setsid hg (caller_some hc).1 (.inl ⟨rfl, rfl⟩) hs
      · exact keeps_refl s _
    · exact keeps_refl s _
  | setpgid p q g =>
    simp only [UxSt.step]
    split
    · rename_i P Q hc hq
      split
      · exact keeps_change hq { Q with group := g } (fun q => rfl) rfl rfl (.inl rfl) id id
      · exact keeps_refl s _
    · exact keeps_refl s _
  | openTty p x n =>
    simp only [UxSt.step]
    split
    · rename_i P hc
      have k := opens p P (fun y => if y = x then some s.files else P.fds y) (s.files + 1) hc
      split
      · exact k
      · exact k
    · exact keeps_refl s _
  | setFg p g =>
    simp only [UxSt.step]
    split
    · split
      · split
        · exact keeps_refl s _
        · exact keeps_refl s _
      · exact keeps_refl s _
    · exact keeps_refl s _
  | opens p x =>
    simp only [UxSt.step]
    split
    · rename_i P hc; exact opens p P _ _ hc
    · exact keeps_refl s _
  | dup p x y =>
    simp only [UxSt.step]
    split
    · rename_i P hc; exact opens p P _ s.files hc
    · exact keeps_refl s _
  | close p x =>
    simp only [UxSt.step]
    split
    · rename_i P hc; exact opens p P _ s.files hc
    · exact keeps_refl s _
  | ends p =>
    simp only [UxSt.step]
    split
    · rename_i P hp
      split
      · exact keeps_ends hp
      · exact keeps_refl s _
    · exact keeps_refl s _
  | wait p q =>
    simp only [UxSt.step]
    split
    · split
      · refine ⟨Nat.le_refl _, fun t T _ e => ?_⟩
        simp only at e
        split at e
        · cases e
        · exact ⟨T, e, rfl, .inl rfl, id, id⟩
      · exact keeps_refl s _
    · exact keeps_refl s _
  | start p daemon =>
    simp only [UxSt.step]
    split
    · rename_i P hc
      have hp := (caller_some hc).1
      refine keeps_birth hp P.pc { P with parent := p, pc := if daemon then .start else .user, fds := startFds P s.files daemon } (fun q => ?_) rfl id id
      simp only [UxSt.birth, put_procs]
      split
      · rfl
      · split
        · rename_i hh; rw [hh, hp]
        · rfl
    · exact keeps_refl s _
  | boot p =>
    simp only [UxSt.step]
    split
    · rename_i P hp
      split
      · exact keeps_boot hg hp
      · exact keeps_refl s _
    · exact keeps_refl s _
  | hangup n => exact keeps_refl s _
  | key n => exact keeps_refl s _
  | kill q => exact keeps_refl s _
  | killGroup g => exact keeps_refl s _

/-- Everything known about a state that can be reached. -/
structure UxSt.Good (s : UxSt) : Prop where
  o : s.Ok
  f : s.Files
  t : s.InvT

theorem good_step {s : UxSt} (h : s.Good) (e : UxEv) : (s.step e).1.Good := ⟨(next_step h.o e).1, files_step h.o h.f e, apart_step h.o h.t e⟩

theorem good_run {s : UxSt} (h : s.Good) (es : List UxEv) : (s.run es).1.Good := by
  induction es generalizing s with
  | nil => exact h
  | cons e es ih => exact ih (good_step h e)

theorem quiet_run {s : UxSt} (h : s.Good) (es : List UxEv) {σ} (hq : s.Quiet σ) : (s.run es).1.Quiet σ := by
  induction es generalizing s with
  | nil => exact hq
  | cons e es ih => exact ih (good_step h e) ((next_step h.o e).2 σ hq)

theorem good_boot : UxSt.boot.Good := by
  have cs : ∀ q Q, UxSt.boot.procs q = some Q → (q = 0 ∧ Q = { parent := 0, group := 0, session := 0, pc := .init }) ∨ (q = 1 ∧ Q = { parent := 0, group := 1, session := 1 }) := by
    intro q Q e
    simp only [UxSt.boot] at e
    split at e
    · rename_i hq; exact .inl ⟨hq, by simpa using e.symm⟩
    · split at e
      · rename_i hq; exact .inr ⟨hq, by simpa using e.symm⟩
      · cases e
  refine ⟨⟨⟨?_, ?_, ?_, ?_⟩, ⟨?_, ?_, ?_⟩, ⟨?_, ?_, ?_, ?_⟩⟩, ⟨⟨?_, ?_, ?_⟩, ⟨?_, ?_, ?_, ?_, ?_⟩⟩, ⟨?_, ?_⟩⟩
  · intro q Q e; rcases cs q Q e with ⟨rfl, rfl⟩ | ⟨rfl, rfl⟩ <;> simp [UxSt.boot]
  · intro n; simp [UxSt.boot]
  · intro p P q Q e e'; rcases cs q Q e' with ⟨rfl, rfl⟩ | ⟨rfl, rfl⟩ <;> rcases cs p P e with ⟨rfl, rfl⟩ | ⟨rfl, rfl⟩ <;> simp
  · intro q Q G e e'; rcases cs q Q e with ⟨rfl, rfl⟩ | ⟨rfl, rfl⟩ <;> rcases cs _ G e' with ⟨h1, rfl⟩ | ⟨h1, rfl⟩ <;> simp at h1 <;> rfl
  · intro q Q e h; rcases cs q Q e with ⟨rfl, rfl⟩ | ⟨rfl, rfl⟩ <;> simp at h
  · intro q Q e h; rcases cs q Q e with ⟨rfl, rfl⟩ | ⟨rfl, rfl⟩ <;> simp [BootPc.leads] at h
  · intro q Q e h; rcases cs q Q e with ⟨rfl, rfl⟩ | ⟨rfl, rfl⟩ <;> simp [BootPc.leads, BootPc.mid] at h
  · exact ⟨_, rfl, rfl, rfl⟩
  · intro q Q e h; rcases cs q Q e with ⟨rfl, rfl⟩ | ⟨rfl, rfl⟩ <;> simp at h ⊢
  · intro q Q e h; rcases cs q Q e with ⟨rfl, rfl⟩ | ⟨rfl, rfl⟩ <;> simp at h ⊢
  · intro q Q e
    refine ⟨{ parent := 0, group := 0, session := 0, pc := .init }, ?_⟩
    rcases cs q Q e with ⟨rfl, rfl⟩ | ⟨rfl, rfl⟩ <;> simp [UxSt.boot]
  · intro q Q f e h; rcases cs q Q e with ⟨rfl, rfl⟩ | ⟨rfl, rfl⟩ <;> simp at h
  · intro q Q e h; rcases cs q Q e with ⟨rfl, rfl⟩ | ⟨rfl, rfl⟩ <;> simp [BootPc.own] at h
  · intro q Q t T e h; rcases cs q Q e with ⟨rfl, rfl⟩ | ⟨rfl, rfl⟩ <;> simp [BootPc.mid] at h
  · intro q Q x d e h; rcases cs q Q e with ⟨rfl, rfl⟩ | ⟨rfl, rfl⟩ <;> simp at h
  · intro q Q x e h; rcases cs q Q e with ⟨rfl, rfl⟩ | ⟨rfl, rfl⟩ <;> simp at h
  · intro q Q e h; rcases cs q Q e with ⟨rfl, rfl⟩ | ⟨rfl, rfl⟩ <;> simp [BootPc.early] at h
  · intro q Q f k e h; rcases cs q Q e with ⟨rfl, rfl⟩ | ⟨rfl, rfl⟩ <;> simp at h
  · intro q Q t T x y d e _ _ h; rcases cs q Q e with ⟨rfl, rfl⟩ | ⟨rfl, rfl⟩ <;> simp at h
  · intro q Q e h; rcases cs q Q e with ⟨rfl, rfl⟩ | ⟨rfl, rfl⟩ <;> simp at h
  · intro q Q e h; rcases cs q Q e with ⟨rfl, rfl⟩ | ⟨rfl, rfl⟩ <;> simp [BootPc.mid] at h

/-- A process through a history. -/
theorem keeps_run {s : UxSt} (h : s.Good) (es : List UxEv) {q Q'} (hq : q < s.next) (e : (s.run es).1.procs q = some Q') :
    ∃ Q, s.procs q = some Q ∧ Q'.line = Q.line ∧ (Q'.session = Q.session ∨ Q'.session = q) ∧ (Q.pc.own = true → Q'.pc.own = true ∧ (UxEv.setsid q ∉ es → Q'.session = Q.session)) ∧
      (Q.pc = .serving → Q'.pc = .serving) := by
  induction es generalizing s with
  | nil => exact ⟨Q', e, rfl, .inl rfl, fun h => ⟨h, fun _ => rfl⟩, id⟩
  | cons ev es ih =>
    have k := keeps_step h.o.g ev
    obtain ⟨Q1, e1, l1, s1, o1, v1⟩ := ih (good_step h ev) (Nat.lt_of_lt_of_le hq k.1) e
    obtain ⟨Q, e0, l0, s0, o0, v0⟩ := k.2 q Q1 hq e1
    refine ⟨Q, e0, by rw [l1, l0], ?_, fun ho => ⟨(o1 (o0 ho)).1, fun hn => ?_⟩, fun hv => v1 (v0 hv)⟩
    · rcases s1 with s1 | s1
      · rcases s0 with s0 | s0
        · exact .inl (by rw [s1, s0])
        · exact .inr (by rw [s1, s0.1])
      · exact .inr s1
    · rw [(o1 (o0 ho)).2 (fun hh => hn (List.mem_cons_of_mem _ hh))]
      rcases s0 with s0 | ⟨_, s0 | s0⟩
      · exact s0
      · exact absurd (by rw [s0]; exact List.mem_cons_self ..) hn
      · simp [s0, BootPc.own] at ho

theorem ux_run_append (s : UxSt) (a b : List UxEv) : (s.run (a ++ b)).1 = ((s.run a).1.run b).1 := by
  induction a generalizing s with
  | nil => rfl
  | cons e a ih => exact ih _
end Verif
