import Verif.Props.Process
import Verif.Proof.Registry
/-!
# C60, C67, C77, C78, C79: reports of children, waiting for them
-/
namespace Verif

/-! ## C60 -/

/-- The script never reports an error: the line that logs it uses a key that does not exist. -/
theorem boot_no_error (f) (B : BootEnv) (args) (t pid) : bootChild f B args ≠ .ready (.error t pid) := by
  have hk : formatKeys ["class_name", "args"] = .error .keyError := by decide
  intro h
  simp only [bootChild, hk] at h
  repeat' split at h
  all_goals first | cases h | simp_all

/-- **C60 fails** for every command line and every failure of the server: the child dies without reporting anything. -/
theorem C60_fails (f) (B : BootEnv) (args) (h : ∀ l, ∃ e, B.server l = .error e) : ∃ e, bootChild f B args = .died e := by
  have hk : formatKeys ["class_name", "args"] = .error .keyError := by decide
  simp only [bootChild, hk]
  repeat' split
  all_goals first | exact ⟨_, rfl⟩ | (rename_i k _ _ _ _ _ _ a ha; obtain ⟨e, he⟩ := h k.listen; rw [he] at ha; cases ha)

theorem report_run_snoc (s : ReportSt) (es e) : s.run (es ++ [e]) = (s.run es).step e := by simp [ReportSt.run]

/-- **C60 fails**: whatever happens then, and however long the parent waits, `start_process` does not raise RuntimeError. Only TimeoutError is left. -/
theorem C60_fails_timeout (es : List ReportEv) (h : ∀ o, .ready o ∈ es → ∃ e, o = .died e) (st : BootStatus) : (ReportSt.run {} es).parent ≠ .got st := by
  have key : (ReportSt.run {} es).chan = [] ∧ (∀ st, (ReportSt.run {} es).parent ≠ .got st) ∧
      ((ReportSt.run {} es).child = .starting ∨ (ReportSt.run {} es).child = .dead) := by
    induction es using snoc_induction with
    | h0 => exact ⟨rfl, by simp [ReportSt.run], .inl rfl⟩
    | hs es e ih =>
      rw [report_run_snoc]
      obtain ⟨h1, h2, h3⟩ := ih (fun o ho => h o (by simp [ho]))
      have he := fun o (ho : e = .ready o) => h o (by simp [ho])
      generalize ReportSt.run {} es = s at h1 h2 h3
      obtain ⟨now, parent, chan, reply, child⟩ := s
      simp only at h1 h2 h3
      subst h1
      cases e with
      | tick d => exact ⟨rfl, h2, h3⟩
      | ready o =>
        obtain ⟨x, rfl⟩ := he o rfl
        rcases h3 with rfl | rfl
        · exact ⟨rfl, h2, .inr rfl⟩
        · exact ⟨rfl, h2, .inr rfl⟩
      | pass => rcases h3 with rfl | rfl <;> exact ⟨rfl, h2, by simp [ReportSt.step]⟩
      | recv =>
        simp only [ReportSt.step]
        cases parent <;> exact ⟨by trivial, h2, h3⟩
      | expire =>
        simp only [ReportSt.step]
        split
        · exact ⟨rfl, by simp, h3⟩
        · exact ⟨rfl, h2, h3⟩
  exact key.2.1 st

/-- What is right about C60: an error that is reported becomes RuntimeError with the text of the child. -/
theorem C60_reported_partial (d : Bool) (poll : Option Int) (t : List String) (pid : Nat) : (parentFinish d poll (some (.error t pid))).2 = .error (.runtimeError, t) := rfl

/-- A child that cannot bind its address. -/
def Ex.noBind : BootEnv where
  qtOk := true
  logOk := fun _ => true
  server := fun _ => .error .zmqError
  traceback := fun _ => ["Traceback"]
  pid := 77

example : bootChild (fun _ => none) Ex.noBind ["child".toList, "--listen_addr=tcp://1.2.3.4:1".toList] = .died .keyError := by decide +kernel

/-- With a server it is ready. -/
example : bootChild (fun _ => none) { Ex.noBind with server := fun _ => .ok [1] } ["child".toList, "--listen_addr=tcp://1.2.3.4:1".toList] = .ready (.address [1] 77) := by
  decide +kernel

example : (ReportSt.run {} [.ready (.died .keyError), .tick 10000, .expire]).parent = .timedOut := by decide

/-! ## C79 -/

/-- What holds while the child reports. -/
structure ReportInv (es : List ReportEv) (s : ReportSt) : Prop where
  chan : ∀ m ∈ s.chan, ∃ since, s.child = .reporting m since ∨ s.child = .done m
  got : ∀ m, s.parent = .got m → (∃ since, s.child = .reporting m since ∨ s.child = .done m)
  reply : s.reply = true ↔ ∃ m, s.parent = .got m
  status : ∀ m since, s.child = .reporting m since ∨ s.child = .done m → .ready (.ready m) ∈ es
  now : s.now = elapsed es
  since : ∀ m t, s.child = .reporting m t → t ≤ s.now
  sent : ReportSent es → s.parent = .waiting → s.chan ≠ []

theorem elapsed_snoc (es e) : elapsed (es ++ [e]) = elapsed es + e.dur := by
  simp [elapsed]

theorem sent_snoc {es e} (h : ReportSent (es ++ [e])) : ReportSent es ∨
    (e = .pass ∧ ∃ st since, (ReportSt.run {} es).child = .reporting st since ∧ (ReportSt.run {} es).now < since + 10000) := by
  obtain ⟨x, y, st, since, h1, h2, h3⟩ := h
  rcases List.eq_nil_or_concat y with rfl | ⟨y, e', rfl⟩
  · obtain ⟨rfl, h⟩ := List.append_inj' h1 rfl
    cases h
    exact .inr ⟨rfl, st, since, h2, h3⟩
  · rw [List.concat_eq_append, ← List.cons_append, ← List.append_assoc] at h1
    obtain ⟨rfl, h⟩ := List.append_inj' h1 rfl
    exact .inl ⟨x, y, st, since, rfl, h2, h3⟩

theorem report_inv (es : List ReportEv) : ReportInv es (ReportSt.run {} es) := by
  induction es using snoc_induction with
  | h0 =>
    refine ⟨by simp [ReportSt.run], by simp [ReportSt.run], by simp [ReportSt.run], by simp [ReportSt.run], rfl, by simp [ReportSt.run], ?_⟩
    rintro ⟨x, y, _, _, h, _⟩
    simp at h
  | hs es e ih =>
    have hsent : ReportSent (es ++ [e]) → _ := sent_snoc
    rw [report_run_snoc]
    generalize ReportSt.run {} es = s at ih hsent
    obtain ⟨now, parent, chan, reply, child⟩ := s
    obtain ⟨h1, h2, h3, h4, h5, h6, h7⟩ := ih
    simp only at h1 h2 h3 h4 h5 h6 h7 hsent
    have h4' : ∀ m since, child = .reporting m since ∨ child = .done m → .ready (.ready m) ∈ es ++ [e] := fun m t h => by simp [h4 m t h]
    cases e with
    | tick d =>
      refine ⟨h1, h2, h3, h4', by simp [ReportSt.step, elapsed_snoc, ReportEv.dur, h5], fun m t h => Nat.le_trans (h6 m t h) (Nat.le_add_right _ _), ?_⟩
      intro hs
      rcases hsent hs with h | ⟨h, -⟩
      · exact h7 h
      · cases h
    | ready o =>
      have hs7 : ReportSent (es ++ [.ready o]) → parent = .waiting → chan ≠ [] := by
        intro hs
        rcases hsent hs with h | ⟨h, -⟩
        · exact h7 h
        · cases h
      simp only [ReportSt.step]
      split
      · rename_i st
        refine ⟨?_, ?_, h3, ?_, by simp [elapsed_snoc, ReportEv.dur, h5], ?_, hs7⟩
        · intro m hm; obtain ⟨t, h | h⟩ := h1 m hm <;> cases h
        · intro m hm; obtain ⟨t, h | h⟩ := h2 m hm <;> cases h
        · rintro m t (h | h) <;> cases h
          simp
        · rintro m t h
          cases h
          exact Nat.le_refl _
      · refine ⟨?_, ?_, h3, ?_, by simp [elapsed_snoc, ReportEv.dur, h5], ?_, hs7⟩
        · intro m hm; obtain ⟨t, h | h⟩ := h1 m hm <;> cases h
        · intro m hm; obtain ⟨t, h | h⟩ := h2 m hm <;> cases h
        · rintro m t (h | h) <;> cases h
        · rintro m t h; cases h
      · exact ⟨h1, h2, h3, h4', by simp [elapsed_snoc, ReportEv.dur, h5], h6, hs7⟩
    | pass =>
      have h5' : now = elapsed (es ++ [.pass]) := by simp [elapsed_snoc, ReportEv.dur, h5]
      cases child with
      | starting =>
        refine ⟨h1, h2, h3, h4', h5', h6, ?_⟩
        intro hs
        rcases hsent hs with h | ⟨-, _, _, h, -⟩
        · exact h7 h
        · cases h
      | dead =>
        refine ⟨h1, h2, h3, h4', h5', h6, ?_⟩
        intro hs
        rcases hsent hs with h | ⟨-, _, _, h, -⟩
        · exact h7 h
        · cases h
      | done st =>
        refine ⟨h1, h2, h3, h4', h5', h6, ?_⟩
        intro hs
        rcases hsent hs with h | ⟨-, _, _, h, -⟩
        · exact h7 h
        · cases h
      | reporting st since =>
        have hst : ∀ m, m ∈ chan → m = st := by
          intro m hm; obtain ⟨t, h | h⟩ := h1 m hm <;> cases h; rfl
        have hgt : ∀ m, parent = .got m → m = st := by
          intro m hm; obtain ⟨t, h | h⟩ := h2 m hm <;> cases h; rfl
        have hr : .ready (.ready st) ∈ es ++ [ReportEv.pass] := h4' st since (.inl rfl)
        simp only [ReportSt.step]
        by_cases hlt : now < since + 10000
        · rw [if_pos hlt]
          cases reply with
          | true =>
            refine ⟨?_, fun m hm => ⟨0, .inr (by rw [hgt m hm]; rfl)⟩, h3, ?_, h5', (by rintro m t h; cases h), fun _ _ => by simp⟩
            · intro m hm
              rcases List.mem_append.1 hm with hm | hm
              · exact ⟨0, .inr (by rw [hst m hm]; rfl)⟩
              · rw [List.mem_singleton.1 hm]; exact ⟨0, .inr rfl⟩
            · rintro m t (h | h) <;> cases h; exact hr
          | false =>
            refine ⟨?_, fun m hm => ⟨since, .inl (by rw [hgt m hm]; rfl)⟩, h3, h4', h5', h6, fun _ _ => by simp⟩
            intro m hm
            rcases List.mem_append.1 hm with hm | hm
            · exact ⟨since, .inl (by rw [hst m hm]; rfl)⟩
            · rw [List.mem_singleton.1 hm]; exact ⟨since, .inl rfl⟩
        · rw [if_neg hlt]
          refine ⟨fun m hm => ⟨0, .inr (by rw [hst m hm])⟩, fun m hm => ⟨0, .inr (by rw [hgt m hm])⟩, h3, ?_, h5', (by rintro m t h; cases h), ?_⟩
          · rintro m t (h | h) <;> cases h; exact hr
          · intro hs
            rcases hsent hs with h | ⟨-, _, _, h, h'⟩
            · exact h7 h
            · cases h; exact absurd h' hlt
    | recv =>
      have h5' : now = elapsed (es ++ [.recv]) := by simp [elapsed_snoc, ReportEv.dur, h5]
      have hs7 : ReportSent (es ++ [.recv]) → parent = .waiting → chan ≠ [] := by
        intro hs
        rcases hsent hs with h | ⟨h, -⟩
        · exact h7 h
        · cases h
      simp only [ReportSt.step]
      split
      · rename_i st r
        refine ⟨fun m hm => h1 m (by simp [hm]), ?_, by simp, h4', h5', h6, by simp⟩
        rintro m h
        cases h
        exact h1 _ (by simp)
      · exact ⟨h1, h2, h3, h4', h5', h6, hs7⟩
    | expire =>
      have h5' : now = elapsed (es ++ [.expire]) := by simp [elapsed_snoc, ReportEv.dur, h5]
      have hs7 : ReportSent (es ++ [.expire]) → parent = .waiting → chan ≠ [] := by
        intro hs
        rcases hsent hs with h | ⟨h, -⟩
        · exact h7 h
        · cases h
      simp only [ReportSt.step]
      split
      · rename_i hc
        obtain ⟨rfl, rfl, hc⟩ := hc
        refine ⟨by simp, by simp, ?_, h4', h5', h6, by simp⟩
        simpa using h3
      · exact ⟨h1, h2, h3, h4', h5', h6, hs7⟩

/-- **C79** For every history of parent and child: the status the parent gets is the one its child came to. -/
theorem C79_status (es : List ReportEv) (st : BootStatus) (h : (ReportSt.run {} es).parent = .got st) : .ready (.ready st) ∈ es := by
  obtain ⟨t, ht⟩ := (report_inv es).got st h
  exact (report_inv es).status st t ht

/-- **C79** The parent gives up only after ten seconds, in which nothing was sent to it. -/
theorem C79_timeout (es : List ReportEv) (h : (ReportSt.run {} es).parent = .timedOut) :
    ∃ es₁ es₂, es = es₁ ++ .expire :: es₂ ∧ 10000 ≤ elapsed es₁ ∧ ¬ ReportSent es₁ := by
  induction es using snoc_induction with
  | h0 => cases h
  | hs es e ih =>
    by_cases hp : (ReportSt.run {} es).parent = .timedOut
    · obtain ⟨a, b, h1, h2, h3⟩ := ih hp
      exact ⟨a, b ++ [e], by simp [h1], h2, h3⟩
    · rw [report_run_snoc] at h
      have hinv := report_inv es
      generalize ReportSt.run {} es = s at h hp hinv
      cases e with
      | tick d => exact absurd h hp
      | ready o =>
        simp only [ReportSt.step] at h
        split at h <;> exact absurd h hp
      | pass =>
        simp only [ReportSt.step] at h
        repeat' split at h
        all_goals exact absurd h hp
      | recv =>
        simp only [ReportSt.step] at h
        split at h
        · cases h
        · exact absurd h hp
      | expire =>
        simp only [ReportSt.step] at h
        split at h
        · rename_i hc
          refine ⟨es, [], rfl, ?_, fun hs => hinv.sent hs hc.1 hc.2.1⟩
          rw [← hinv.now]; exact hc.2.2
        · exact absurd h hp

/-- **C79** Once the status was sent, a parent that waits receives it (at its next step), and then answers. -/
theorem C79_received (es : List ReportEv) (h : ReportSent es) (hw : (ReportSt.run {} es).parent = .waiting) :
    ∃ st, (ReportSt.run {} (es ++ [.recv])).parent = .got st ∧ (ReportSt.run {} (es ++ [.recv])).reply = true ∧ .ready (.ready st) ∈ es := by
  have hinv := report_inv es
  have hc := hinv.sent h hw
  rw [report_run_snoc]
  cases hch : (ReportSt.run {} es).chan with
  | nil => exact absurd hch hc
  | cons st r =>
    refine ⟨st, ?_, ?_, ?_⟩
    · simp [ReportSt.step, hw, hch]
    · simp [ReportSt.step, hw, hch]
    · obtain ⟨t, ht⟩ := hinv.chan st (by simp [hch])
      exact hinv.status st t ht

/-- **C79** The child stops reporting when it is answered, or after ten seconds. -/
theorem C79_child (es : List ReportEv) (st since) (hc : (ReportSt.run {} es).child = .reporting st since)
    (h : (∃ m, (ReportSt.run {} es).parent = .got m) ∨ since + 10000 ≤ (ReportSt.run {} es).now) : (ReportSt.run {} (es ++ [.pass])).child = .done st := by
  have hinv := report_inv es
  rw [report_run_snoc]
  simp only [ReportSt.step, hc]
  by_cases hlt : (ReportSt.run {} es).now < since + 10000
  · rw [if_pos hlt]
    have hr := hinv.reply.2 (by rcases h with h | h; exact h; omega)
    simp [hr]
  · rw [if_neg hlt]

/-- A child that starts in two seconds and is heard. -/
def Ex.heard : List ReportEv := [.tick 2000, .ready (.ready (.address [1, 2] 77)), .pass, .tick 10, .pass, .recv, .tick 10, .pass]

example : (ReportSt.run {} Ex.heard).parent = .got (.address [1, 2] 77) ∧ (ReportSt.run {} Ex.heard).child = .done (.address [1, 2] 77) := by decide
example : ReportSent (Ex.heard.take 3) ∧ (ReportSt.run {} (Ex.heard.take 3)).parent = .waiting :=
  ⟨⟨Ex.heard.take 2, [], .address [1, 2] 77, 2000, rfl, by decide, by decide⟩, by decide⟩

/-! ## C77 -/

/-- **C77 fails**: a child slow to start is given up by its parent, and then goes on, reports into the void, and runs its server for ever. -/
theorem C77_fails (a : Bytes) (pid : Nat) : ∃ es, (ReportSt.run {} es).parent = .timedOut ∧ (ReportSt.run {} es).child = .done (.address a pid) ∧
    parentFinish false none none = ([], .error (.timeoutError, [])) := by
  obtain ⟨T, hT⟩ : ∃ T, 10000 ≤ T := ⟨10000, Nat.le_refl _⟩
  have h1 : ¬ T + T < T + 10000 := by omega
  refine ⟨[.tick T, .expire, .ready (.ready (.address a pid)), .tick T, .pass], ?_, ?_, rfl⟩
  · simp only [ReportSt.run, List.foldl, ReportSt.step, Nat.zero_add, hT, and_self, if_true, h1, if_false]
  · simp only [ReportSt.run, List.foldl, ReportSt.step, Nat.zero_add, hT, and_self, if_true, h1, if_false]

/-- **C77 fails**: whatever the report, and if there is none, the parent never kills a child that runs: it kills one exactly if it has already exited, is no daemon and has reported
an error. -/
theorem C77_fails_kill (d : Bool) (poll : Option Int) (r : Option BootStatus) :
    ParentAct.kill ∈ (parentFinish d poll r).1 ↔ poll ≠ none ∧ d = false ∧ ∃ t pid, r = some (.error t pid) := by
  cases r with
  | none => simp [parentFinish]
  | some st =>
    cases st with
    | address a pid => simp [parentFinish]
    | error t pid =>
      simp only [parentFinish]
      split
      · rename_i hc; simpa using hc.symm
      · rename_i hc; simp only [List.append_nil, List.mem_singleton, reduceCtorEq, false_iff]; exact fun h => hc ⟨h.2.1, h.1⟩

example : ParentAct.kill ∈ (parentFinish false (some 1) (some (.error ["x"] 7))).1 := by decide

/-- What is right about C77: a child whose error was reported does not run a server. -/
theorem C77_partial (es : List ReportEv) (t pid) (h : (ReportSt.run {} es).parent = .got (.error t pid)) (a pid') :
    (ReportSt.run {} es).child ≠ .done (.address a pid') := by
  obtain ⟨s, hs | hs⟩ := (report_inv es).got _ h <;> rw [hs] <;> simp

example : (ReportSt.run {} [.ready (.ready (.error ["x"] 7)), .pass, .recv]).parent = .got (.error ["x"] 7) := by decide

/-! ## C67 -/

theorem waitLoop_sound (p : OsProc) (start timeout : Nat) : ∀ (ds : List Nat) (now sleep : Nat) (t : Nat) (r : Except Exc Int),
    waitLoop p start timeout now sleep ds = some (t, r) →
    (∀ c, r = .ok c → c = p.code ∧ ∃ x, p.exitAt = some x ∧ x ≤ t) ∧
    (∀ e, r = .error e → e = .timeoutError ∧ start + timeout < t ∧ ∀ x, p.exitAt = some x → t < x) := by
  have hpoll : ∀ now, (∀ c, p.poll now = some c → c = p.code ∧ ∃ x, p.exitAt = some x ∧ x ≤ now) ∧ (p.poll now = none → ∀ x, p.exitAt = some x → now < x) := by
    intro now
    simp only [OsProc.poll]
    cases p.exitAt with
    | none => simp
    | some x =>
      simp only
      by_cases h : x ≤ now
      · rw [if_pos h]; refine ⟨fun c hc => ?_, by simp⟩; cases hc; exact ⟨rfl, x, rfl, h⟩
      · rw [if_neg h]; refine ⟨by simp, fun _ y hy => ?_⟩; cases hy; omega
  intro ds
  induction ds with
  | nil =>
    intro now sleep t r h
    simp only [waitLoop] at h
    cases hp : p.poll now with
    | some c =>
      rw [hp] at h; simp only [Option.some.injEq, Prod.mk.injEq] at h
      obtain ⟨rfl, rfl⟩ := h
      refine ⟨fun c' hc => ?_, by simp⟩
      cases hc
      exact (hpoll now).1 c hp
    | none =>
      rw [hp] at h; simp only at h
      split at h
      · simp only [Option.some.injEq, Prod.mk.injEq] at h
        obtain ⟨rfl, rfl⟩ := h
        refine ⟨by simp, fun e he => ?_⟩
        cases he
        exact ⟨rfl, by omega, (hpoll now).2 hp⟩
      · cases h
  | cons d ds ih =>
    intro now sleep t r h
    simp only [waitLoop] at h
    cases hp : p.poll now with
    | some c =>
      rw [hp] at h; simp only [Option.some.injEq, Prod.mk.injEq] at h
      obtain ⟨rfl, rfl⟩ := h
      refine ⟨fun c' hc => ?_, by simp⟩
      cases hc
      exact (hpoll now).1 c hp
    | none =>
      rw [hp] at h; simp only at h
      split at h
      · simp only [Option.some.injEq, Prod.mk.injEq] at h
        obtain ⟨rfl, rfl⟩ := h
        refine ⟨by simp, fun e he => ?_⟩
        cases he
        exact ⟨rfl, by omega, (hpoll now).2 hp⟩
      · exact ih _ _ _ _ h

/-- **C67** For every process, timeout and schedule: what `wait` returns is the exit code of a process that has exited; the only exception is TimeoutError, and not before the timeout. -/
theorem C67_sound (p : OsProc) (pipes : Option Nat) (start timeout : Nat) (c : Communicate) (hc : c.fits p pipes start timeout) (ds : List Nat) (t : Nat) (r : Except Exc Int)
    (h : childWait p start timeout c ds = some (t, r)) :
    (∀ code, r = .ok code → code = p.code ∧ ∃ x, p.exitAt = some x ∧ x ≤ t) ∧ (∀ e, r = .error e → e = .timeoutError ∧ start + timeout ≤ t) := by
  cases c with
  | expired d =>
    simp only [childWait, Option.some.injEq, Prod.mk.injEq] at h
    obtain ⟨rfl, rfl⟩ := h
    refine ⟨by simp, fun e he => ?_⟩
    cases he
    have := hc.1
    exact ⟨rfl, by omega⟩
  | returns d =>
    obtain ⟨h1, h2⟩ := waitLoop_sound p start timeout ds _ _ t r h
    exact ⟨h1, fun e he => ⟨(h2 e he).1, by have := (h2 e he).2.1; omega⟩⟩
  | bug d =>
    obtain ⟨h1, h2⟩ := waitLoop_sound p start timeout ds _ _ t r h
    exact ⟨h1, fun e he => ⟨(h2 e he).1, by have := (h2 e he).2.1; omega⟩⟩

/-- **C67** If the process exits within the timeout, and its pipes are closed by then, `wait` does not raise: what it gives is the exit code. (If a process started by the child keeps
the pipes open, it raises: `C67_fails`.) -/
theorem C67_exits_partial (p : OsProc) (pipes : Option Nat) (start timeout : Nat) (c : Communicate) (hc : c.fits p pipes start timeout) (x : Nat) (hx : p.exitAt = some x)
    (hxt : x ≤ start + timeout) (y : Nat) (hy : pipes = some y) (hyt : y ≤ start + timeout) (ds : List Nat) (t : Nat) (r : Except Exc Int)
    (h : childWait p start timeout c ds = some (t, r)) : r = .ok p.code := by
  have key : ∀ now, waitLoop p start timeout now 1 ds = some (t, r) → r = .ok p.code := by
    intro now h
    obtain ⟨h1, h2⟩ := waitLoop_sound p start timeout ds _ _ t r h
    cases r with
    | ok code => rw [(h1 code rfl).1]
    | error e =>
      obtain ⟨-, h3, h4⟩ := h2 e rfl
      have := h4 x hx
      omega
  cases c with
  | expired d => exact absurd ⟨⟨x, hx, hxt⟩, y, hy, hyt⟩ hc.2
  | returns d => exact key _ h
  | bug d => exact key _ h

/-- **C67** If the process does not exit, or later, `wait` does not return a code before the exit. -/
theorem C67_late (p : OsProc) (pipes : Option Nat) (start timeout : Nat) (c : Communicate) (hc : c.fits p pipes start timeout) (ds : List Nat) (t : Nat) (r : Except Exc Int)
    (h : childWait p start timeout c ds = some (t, r)) (hx : ∀ x, p.exitAt = some x → t < x) : r = .error .timeoutError := by
  obtain ⟨h1, h2⟩ := C67_sound p pipes start timeout c hc ds t r h
  cases r with
  | ok code =>
    obtain ⟨-, x, hx', hle⟩ := h1 code rfl
    have := hx x hx'
    omega
  | error e => rw [(h2 e rfl).1]

/-- The loop ends: each pass takes at least a millisecond. -/
theorem waitLoop_ends (p : OsProc) (start timeout : Nat) : ∀ (ds : List Nat) (now sleep : Nat), 1 ≤ sleep → start ≤ now → start + timeout < now + ds.length →
    ∃ t r, waitLoop p start timeout now sleep ds = some (t, r) := by
  intro ds
  induction ds with
  | nil =>
    intro now sleep hs hn hl
    simp only [waitLoop]
    split
    · exact ⟨_, _, rfl⟩
    · rw [if_pos (by simp at hl; omega)]; exact ⟨_, _, rfl⟩
  | cons d ds ih =>
    intro now sleep hs hn hl
    simp only [waitLoop]
    split
    · exact ⟨_, _, rfl⟩
    · split
      · exact ⟨_, _, rfl⟩
      · exact ih _ _ (by omega) (by omega) (by simp only [List.length_cons] at hl; omega)

/-- **C67** `wait` ends: after at most `timeout + 1` passes. -/
theorem C67_ends (p : OsProc) (start timeout : Nat) (c : Communicate) (ds : List Nat) (hd : timeout < ds.length) :
    ∃ t r, childWait p start timeout c ds = some (t, r) := by
  cases c with
  | expired d => exact ⟨_, _, rfl⟩
  | returns d => exact waitLoop_ends p start timeout ds _ _ (by omega) (by omega) (by omega)
  | bug d => exact waitLoop_ends p start timeout ds _ _ (by omega) (by omega) (by omega)

theorem waitLoop_bound (p : OsProc) (start timeout D : Nat) : ∀ (ds : List Nat) (now sleep : Nat) (t : Nat) (r), (∀ d ∈ ds, d ≤ D) → sleep ≤ 100 → now ≤ start + timeout + 100 + D →
    waitLoop p start timeout now sleep ds = some (t, r) → t ≤ start + timeout + 100 + D := by
  intro ds
  induction ds with
  | nil =>
    intro now sleep t r hD hs hn h
    simp only [waitLoop] at h
    repeat' split at h
    all_goals first | cases h; done | (simp only [Option.some.injEq, Prod.mk.injEq] at h; omega)
  | cons d ds ih =>
    intro now sleep t r hD hs hn h
    simp only [waitLoop] at h
    split at h
    · simp only [Option.some.injEq, Prod.mk.injEq] at h; omega
    · split at h
      · simp only [Option.some.injEq, Prod.mk.injEq] at h; omega
      · refine ih _ _ t r (fun x hx => hD x (by simp [hx])) (by omega) ?_ h
        have := hD d (by simp)
        omega

/-- **C67** It never takes longer than the timeout by more than one polling sleep (100 ms) and one delay by the scheduler. -/
theorem C67_bound (p : OsProc) (pipes : Option Nat) (start timeout D : Nat) (c : Communicate) (hc : c.fits p pipes start timeout) (ds : List Nat) (hD : ∀ d ∈ ds, d ≤ D) (t r)
    (hcd : ∀ d, c = .expired d → d ≤ timeout + D)
    (h : childWait p start timeout c ds = some (t, r)) : t ≤ start + timeout + 100 + D := by
  cases c with
  | expired d =>
    simp only [childWait, Option.some.injEq, Prod.mk.injEq] at h
    have := hcd d rfl
    omega
  | returns d => exact waitLoop_bound p start timeout D ds _ _ t r hD (by omega) (by have := hc.2.2; omega) h
  | bug d => exact waitLoop_bound p start timeout D ds _ _ t r hD (by omega) (by have : d ≤ timeout := hc; omega) h

/-- **C67** `stop` and `kill` on an exited process do nothing and give None. -/
theorem C67_exited (code : Int) (cl w) : childStop (some code) cl w = ([], .ok none) ∧ childKill (some code) w = ([], .ok none) := ⟨rfl, rfl⟩

/-- **C67** On a running process `kill` kills and waits; `stop` asks the server to close and, if it says True, waits; otherwise the process is left running: with the exception of
the request, or with AssertionError for another answer. -/
theorem C67_running (cl : Except Exc PArg) (w : Except Exc Int) :
    childKill none w = ([.kill, .wait], w.map some) ∧ (cl = .ok (.bool true) → childStop none cl w = ([.closeServer, .wait], w.map some)) ∧
    (∀ e, cl = .error e → childStop none cl w = ([.closeServer], .error e)) ∧
    (∀ v, v ≠ .bool true → cl = .ok v → childStop none cl w = ([.closeServer], .error .assertionError)) := by
  refine ⟨rfl, ?_, ?_, ?_⟩
  · rintro rfl; rfl
  · rintro e rfl; rfl
  · rintro v hv rfl
    simp only [childStop, if_neg hv]

/-- **C67 fails** in general: a process that exits at once, but has started another one that keeps its output pipe open, makes `wait` raise TimeoutError. -/
theorem C67_fails (start timeout : Nat) (code : Int) : ∃ (p : OsProc) (c : Communicate), p.poll start = some code ∧ c.fits p none start timeout ∧
    ∀ ds, childWait p start timeout c ds = some (start + timeout, .error .timeoutError) :=
  ⟨⟨some start, code⟩, .expired timeout, by simp [OsProc.poll], ⟨Nat.le_refl _, by simp⟩, fun _ => rfl⟩

/-- A process that exits after 3 s with code 7, seen after the Python bug. -/
example : childWait ⟨some 5, 7⟩ 0 10000 (.bug 0) [0, 0, 0, 0] = some (7, .ok 7) := by decide
example : (Communicate.returns 5).fits ⟨some 5, 7⟩ (some 4) 0 10000 := ⟨⟨5, rfl, by decide⟩, ⟨4, rfl, by decide⟩, by decide⟩
example : childWait ⟨none, 7⟩ 0 3 (.bug 0) [0, 0, 0, 0] = some (7, .error .timeoutError) := by decide

/-! ## C78 -/

/-- What the child has written. -/
def writtenBy (es : List SharedEv) : Bytes := es.flatMap fun e => match e with | .wrote b => b | _ => []

/-- **C78 fails**: bytes that `communicate`, called by `wait`, takes from the pipe are never logged: here a whole line. -/
theorem C78_fails : ∃ es : List SharedEv, writtenBy es = utf8 "bye\n".toList ∧ (PipeSt.run [] {} (SharedPipe.run {} es).poller).2 = [.ended] :=
  ⟨[.wrote (utf8 "bye\n".toList), .communicateReads, .closed, .go], by decide +kernel, by decide +kernel⟩

/-- What the poller and the pipe hold. -/
theorem shared_writes (es : List SharedEv) (h : .communicateReads ∉ es) : pipedOf (SharedPipe.run {} es).poller ++ (SharedPipe.run {} es).kernel = writtenBy es := by
  induction es using snoc_induction with
  | h0 => rfl
  | hs es e ih =>
    have ih := ih (fun hh => h (by simp [hh]))
    have hr : SharedPipe.run {} (es ++ [e]) = (SharedPipe.run {} es).step e := by simp [SharedPipe.run]
    rw [hr]
    simp only [writtenBy, List.flatMap_append, List.flatMap_cons, List.flatMap_nil, List.append_nil] at ih ⊢
    rw [← ih]
    cases e with
    | communicateReads => exact absurd (by simp) h
    | wrote b => simp [SharedPipe.step]
    | pollerReads => simp [SharedPipe.step, pipedOf]
    | closed => simp [SharedPipe.step, pipedOf]
    | go => simp [SharedPipe.step, pipedOf]

/-- **C78** without anyone waiting (or with nothing left in the pipe): however the child writes its lines and the thread reads them, in the end all are logged, in order. -/
theorem C78_partial (pre : List Char) (ls : List (List Char)) (hls : ∀ l ∈ ls, '\n' ∉ l) (es : List SharedEv) (hn : .communicateReads ∉ es)
    (hw : writtenBy es <+: linesBytes ls) (hcl : ∀ a b, es = a ++ .closed :: b → writtenBy a = linesBytes ls) (hc : .closed ∈ es) :
    ∃ n, (PipeSt.run pre {} ((SharedPipe.run {} es).poller ++ List.replicate n .go)).2 = (ls.map fun l => .logged (pre ++ l)) ++ [.ended] := by
  have hrun : ∀ es e, SharedPipe.run {} (es ++ [e]) = (SharedPipe.run {} es).step e := fun es e => by simp [SharedPipe.run]
  refine C57_all pre ls hls _ ⟨?_, ?_⟩ ?_
  · exact (List.prefix_append _ _).trans ((shared_writes es hn) ▸ hw)
  · clear hw hc
    induction es using snoc_induction with
    | h0 => intro a b h; simp [SharedPipe.run] at h
    | hs es e ih =>
      have ih := ih (fun h => hn (by simp [h])) (fun a b h => hcl a (b ++ [e]) (by simp [h]))
      have hsw := shared_writes es (fun h => hn (by simp [h]))
      have old : ∀ x, PipeEv.closed ∉ x → ∀ a b, (SharedPipe.run {} es).poller ++ x = a ++ .closed :: b → pipedOf a = linesBytes ls := by
        intro x hx a b h
        rw [List.append_eq_append_iff] at h
        rcases h with ⟨y, rfl, h⟩ | ⟨y, h, h'⟩
        · exact absurd (by rw [h]; simp) hx
        · cases y with
          | nil => exact absurd (by rw [← List.nil_append x, ← h']; simp) hx
          | cons z y =>
            simp only [List.cons_append, List.cons.injEq] at h'
            exact ih a y (by rw [h, ← h'.1])
      rw [hrun]
      cases e with
      | communicateReads => exact absurd (by simp) hn
      | wrote b => exact ih
      | pollerReads => exact old _ (by simp)
      | go => exact old _ (by simp)
      | closed =>
        intro a b h
        simp only [SharedPipe.step] at h
        rw [show (SharedPipe.run {} es).poller ++ [.wrote (SharedPipe.run {} es).kernel, .closed] =
          ((SharedPipe.run {} es).poller ++ [.wrote (SharedPipe.run {} es).kernel]) ++ [.closed] by simp] at h
        rcases List.eq_nil_or_concat b with rfl | ⟨b', e', rfl⟩
        · obtain ⟨rfl, -⟩ := List.append_inj' h rfl
          rw [pipedOf_append, ← hcl es [] rfl, ← hsw]
          simp [pipedOf]
        · rw [List.concat_eq_append, ← List.cons_append, ← List.append_assoc] at h
          obtain ⟨h, -⟩ := List.append_inj' h rfl
          exact old _ (by simp) a b' h
  · obtain ⟨a, b, rfl⟩ := List.append_of_mem hc
    have keep : ∀ (b : List SharedEv) (s : SharedPipe), .closed ∈ s.poller → .closed ∈ (s.run b).poller := by
      intro b
      induction b with
      | nil => intro s h; exact h
      | cons e b ih =>
        intro s h
        refine ih _ ?_
        cases e <;> simp [SharedPipe.step, h]
    have : SharedPipe.run {} (a ++ .closed :: b) = ((SharedPipe.run {} a).step .closed).run b := by simp [SharedPipe.run]
    rw [this]
    exact keep b _ (by simp [SharedPipe.step])

/-- A case: two lines in three pieces. -/
example : (PipeSt.run [] {} (SharedPipe.run {} [.wrote [104], .pollerReads, .wrote [105, 10, 72], .go, .pollerReads, .go, .wrote [10], .closed, .go, .go]).poller).2 =
    [.logged ['h', 'i'], .logged ['H'], .ended] := by decide +kernel

namespace Ex

/-! ## The theorems on these cases -/

example := C60_fails (fun _ => none) noBind ["child".toList, "--listen_addr=tcp://1.2.3.4:1".toList] fun _ => ⟨_, rfl⟩
example := C60_fails_timeout [.ready (.died .keyError), .tick 10000, .expire] (by simp)
example := C79_status heard (.address [1, 2] 77) (by decide)
example := C79_timeout [.tick 2000, .tick 8000, .expire] (by decide)
theorem heard_sent : ReportSent (heard.take 3) := ⟨heard.take 2, [], .address [1, 2] 77, 2000, rfl, by decide, by decide⟩
example := C79_received (heard.take 3) heard_sent (by decide)
example := C79_child (heard.take 6) (.address [1, 2] 77) 2000 (by decide) (.inl ⟨.address [1, 2] 77, by decide⟩)
example := C77_partial [.ready (.ready (.error ["x"] 7)), .pass, .recv] ["x"] 7 (by decide)
example := C67_sound ⟨some 5, 7⟩ none 0 10000 (.bug 0) (Nat.zero_le _) [0, 0, 0, 0] 7 (.ok 7) (by decide)
example := C67_exits_partial ⟨some 5, 7⟩ (some 4) 0 10000 (.returns 5) ⟨⟨5, rfl, by decide⟩, ⟨4, rfl, by decide⟩, by decide⟩ 5 rfl (by decide) 4 rfl (by decide) [] 5 _ rfl
example := C67_exits_partial ⟨some 5, 7⟩ (some 4) 0 10000 (.bug 0) (Nat.zero_le _) 5 rfl (by decide) 4 rfl (by decide) [0, 0, 0, 0] 7 (.ok 7) (by decide)
example := C67_late ⟨none, 7⟩ none 0 3 (.bug 0) (Nat.zero_le _) [0, 0, 0, 0] 7 (.error .timeoutError) (by decide) (by simp)
example := C67_ends ⟨some 5, 7⟩ 0 3 (.bug 0) [0, 0, 0, 0] (by decide)
example := C67_bound ⟨none, 7⟩ none 0 3 2 (.bug 0) (Nat.zero_le _) [2, 1, 2, 0] (by simp) 6 (.error .timeoutError) (by simp) (by decide)
example := C78_partial [] [['h', 'i'], ['H']] (by simp) [.wrote [104], .pollerReads, .wrote [105, 10, 72], .go, .pollerReads, .go, .wrote [10], .closed, .go, .go]
  (by simp) (by decide +kernel) (by
    intro a b h
    have hl := congrArg List.length h
    rcases a with _ | ⟨_, a⟩ <;> simp at h
    rcases a with _ | ⟨_, a⟩ <;> simp at h
    rcases a with _ | ⟨_, a⟩ <;> simp at h
    rcases a with _ | ⟨_, a⟩ <;> simp at h
    rcases a with _ | ⟨_, a⟩ <;> simp at h
    rcases a with _ | ⟨_, a⟩ <;> simp at h
    rcases a with _ | ⟨_, a⟩ <;> simp at h
    rcases a with _ | ⟨_, a⟩
    · obtain ⟨rfl, rfl, rfl, rfl, rfl, rfl, rfl, -⟩ := h
      decide +kernel
    · simp at h
      obtain ⟨-, -, -, -, -, -, -, -, h⟩ := h
      rcases a with _ | ⟨_, a⟩ <;> simp at h
      rcases a with _ | ⟨_, a⟩ <;> simp at h) (by simp)

end Ex

end Verif
