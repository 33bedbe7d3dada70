import Verif.Props.Kill
/-!
# C113: the exit code of a child

`ChildProcess.poll()`, in every history of processes that start, end, are killed and waited for, with pids used again (/repo/teleprox/process.py:300, 308-334). Model: `Verif/Model/Kill.lean`.
-/
namespace Verif

/-- In the history `es` the process `inst` ended with code `c`: at some moment it ran, and one step later it had ended, either by itself with that code or by SIGKILL (-9). -/
def EndedWith (es : List PidEv) (inst : Nat) (c : Int) : Prop :=
  ∃ a e b pid x, es = a ++ e :: b ∧ (PidSt.run {} a).1.table pid = some x ∧ x.inst = inst ∧ x.code = none ∧
    (e = .exits pid c ∨ (c = -9 ∧ ∃ who wanted, .signal who inst wanted ∈ ((PidSt.run {} a).1.step e).2))

theorem EndedWith.snoc {es inst c} (h : EndedWith es inst c) (e : PidEv) : EndedWith (es ++ [e]) inst c := by
  obtain ⟨a, x, b, h⟩ := h
  obtain ⟨pid, y, rfl, h⟩ := h
  exact ⟨a, x, b ++ [e], pid, y, by simp, h⟩

/-- What holds in all histories. -/
structure CodeInv (es : List PidEv) (s : PidSt) : Prop where
  entry : ∀ pid e c, s.table pid = some e → e.code = some c → EndedWith es e.inst c
  known : ∀ (h : Nat) (p : PopenObj) (c : Int), s.children[h]? = some p → p.returncode = some c → EndedWith es p.inst c

theorem CodeInv.weaken {es s} (h : CodeInv es s) (e : PidEv) : CodeInv (es ++ [e]) s :=
  ⟨fun pid x c h1 h2 => (h.entry pid x c h1 h2).snoc e, fun i p c h1 h2 => (h.known i p c h1 h2).snoc e⟩

theorem codeInv_poll {es s} (hc : CodeInv es s) (hi : PidInv s) (h : Nat) (p : PopenObj) (hp : s.children[h]? = some p) : CodeInv es (s.poll h p).1 := by
  unfold PidSt.poll
  split
  · exact hc
  · next hr =>
    obtain ⟨e, he, h1, h2, -⟩ := hi.live h p hp hr
    obtain ⟨inst, code, ours, allowed⟩ := e
    simp only at h1 h2
    subst h1 h2
    rw [he]
    cases code with
    | none => exact hc
    | some c =>
      simp only
      refine ⟨fun pid x c' hx hxc => ?_, fun i q c' hq hqc => ?_⟩
      · simp only [PidSt.put] at hx
        split at hx
        · cases hx
        · exact hc.entry pid x c' hx hxc
      · rcases set_get hq with ⟨-, hq⟩ | ⟨-, rfl⟩
        · exact hc.known i q c' hq hqc
        · simp only [Option.some.injEq] at hqc
          subst hqc
          exact hc.entry _ _ _ he rfl

theorem codeInv_kill {es s s0} (hc : CodeInv es s) (e : PidEv) (hes : s0 = (PidSt.run {} es).1) (ht : s.table = s0.table) (who pid wanted)
    (hout : (s0.step e).2 = (s.osKill who pid wanted).2) : CodeInv (es ++ [e]) (s.osKill who pid wanted).1 := by
  revert hout
  unfold PidSt.osKill
  split
  · exact fun _ => hc.weaken e
  · next x hx =>
    split
    · exact fun _ => hc.weaken e
    · intro hout
      refine ⟨fun q y c hy hyc => ?_, fun i q c hq hqc => (hc.weaken e).known i q c hq hqc⟩
      simp only [PidSt.put] at hy
      split at hy
      · next hq =>
        subst hq
        simp only [Option.some.injEq] at hy
        subst hy
        simp only [Option.some.injEq] at hyc ⊢
        cases hcode : x.code with
        | some c0 =>
          rw [hcode] at hyc
          simp only [Option.getD_some] at hyc
          subst hyc
          exact (hc.weaken e).entry q x c0 hx hcode
        | none =>
          rw [hcode] at hyc
          simp only [Option.getD_none] at hyc
          subst hyc
          refine ⟨es, e, [], q, x, rfl, by rw [← hes, ← ht]; exact hx, rfl, hcode, .inr ⟨rfl, who, wanted, ?_⟩⟩
          rw [← hes, hout]; simp
      · exact (hc.weaken e).entry q y c hy hyc

theorem codeInv_step (es : List PidEv) (e : PidEv) (hc : CodeInv es (PidSt.run {} es).1) : CodeInv (es ++ [e]) ((PidSt.run {} es).1.step e).1 := by
  have hi := pidInv_run es
  have hput : ∀ (pid : Nat) (x : PidEntry), x.code = none → ∀ (s' : PidSt), s'.table = ((PidSt.run {} es).1.put pid (some x)).table →
      (∀ (h : Nat) (p : PopenObj) (c : Int), s'.children[h]? = some p → p.returncode = some c → (PidSt.run {} es).1.children[h]? = some p) → CodeInv (es ++ [e]) s' := by
    intro pid x hx s' hs' hk
    refine ⟨fun q y c hy hyc => ?_, fun i p c hp hpc => (hc.weaken e).known i p c (hk i p c hp hpc) hpc⟩
    rw [hs'] at hy
    simp only [PidSt.put] at hy
    split at hy
    · simp only [Option.some.injEq] at hy
      subst hy
      rw [hx] at hyc
      cases hyc
    · exact (hc.weaken e).entry q y c hy hyc
  cases e with
  | spawn pid =>
    simp only [PidSt.step]
    split
    · exact hc.weaken _
    · refine hput pid _ rfl _ rfl fun h p c hp hpc => ?_
      simp only [PidSt.put] at hp
      rcases Nat.lt_or_ge h (PidSt.run {} es).1.children.length with hl | hl
      · rwa [List.getElem?_append_left hl] at hp
      · rw [List.getElem?_append_right hl] at hp
        have := List.mem_of_getElem? hp
        simp only [List.mem_singleton] at this
        subst this
        cases hpc
  | daemon pid =>
    simp only [PidSt.step]
    split
    · exact hc.weaken _
    · exact hput pid _ rfl _ rfl fun h p c hp _ => hp
  | other pid a =>
    simp only [PidSt.step]
    split
    · exact hc.weaken _
    · exact hput pid _ rfl _ rfl fun h p c hp _ => hp
  | exits pid code =>
    simp only [PidSt.step]
    split
    · next x hx =>
      refine ⟨fun q y c hy hyc => ?_, fun i q c hq hqc => (hc.weaken _).known i q c hq hqc⟩
      simp only [PidSt.put] at hy
      split at hy
      · next hq =>
        subst hq
        simp only [Option.some.injEq] at hy
        subst hy
        simp only [Option.some.injEq] at hyc ⊢
        cases hcode : x.code with
        | some c0 =>
          rw [hcode] at hyc
          simp only [Option.getD_some] at hyc
          subst hyc
          exact (hc.weaken _).entry q x c0 hx hcode
        | none =>
          rw [hcode] at hyc
          simp only [Option.getD_none] at hyc
          subst hyc
          exact ⟨es, _, [], q, x, rfl, hx, rfl, hcode, .inl rfl⟩
      · exact (hc.weaken _).entry q y c hy hyc
    · exact hc.weaken _
  | reaped pid =>
    simp only [PidSt.step]
    split
    · refine ⟨fun q y c hy hyc => ?_, fun i q c hq hqc => (hc.weaken _).known i q c hq hqc⟩
      simp only [PidSt.put] at hy
      split at hy
      · cases hy
      · exact (hc.weaken _).entry q y c hy hyc
    · exact hc.weaken _
  | poll h =>
    simp only [PidSt.step]
    split
    · exact hc.weaken _
    · next p hp => exact (codeInv_poll hc hi h p hp).weaken _
  | killCheck t h =>
    simp only [PidSt.step]
    split
    · exact hc.weaken _
    · exact hc.weaken _
    · next p _ hp =>
      have := (codeInv_poll hc hi h p hp).weaken (.killCheck t h)
      generalize (PidSt.run {} es).1.poll h p = r at this ⊢
      obtain ⟨s', _ | c⟩ := r
      · exact ⟨this.entry, this.known⟩
      · exact this
  | killSend t =>
    cases ht : (PidSt.run {} es).1.pending t with
    | none => simp only [PidSt.step, ht]; exact hc.weaken _
    | some h =>
      cases hh : (PidSt.run {} es).1.children[h]? with
      | none => simp only [PidSt.step, ht, hh]; exact ⟨(hc.weaken _).entry, (hc.weaken _).known⟩
      | some p =>
        have h1 := codeInv_kill (s := { (PidSt.run {} es).1 with pending := fun x => if x = t then none else (PidSt.run {} es).1.pending x }) (s0 := (PidSt.run {} es).1)
          ⟨hc.entry, hc.known⟩ (.killSend t) rfl rfl .child p.pid p.inst (by simp only [PidSt.step, ht, hh])
        simpa only [PidSt.step, ht, hh] using h1
  | killDaemon d =>
    cases hd : (PidSt.run {} es).1.daemons[d]? with
    | none => simp only [PidSt.step, hd]; exact hc.weaken _
    | some x =>
      obtain ⟨pid, inst⟩ := x
      have h1 := codeInv_kill hc (.killDaemon d) rfl rfl .daemon pid inst (by simp only [PidSt.step, hd])
      simpa only [PidSt.step, hd] using h1
  | clean h =>
    cases hh : (PidSt.run {} es).1.children[h]? with
    | none => simp only [PidSt.step, hh]; exact hc.weaken _
    | some p =>
      have h1 := codeInv_kill hc (.clean h) rfl rfl .cleaner p.pid p.inst (by simp only [PidSt.step, hh])
      simpa only [PidSt.step, hh] using h1

theorem codeInv_run (es : List PidEv) : CodeInv es (PidSt.run {} es).1 := by
  induction es using snoc_induction with
  | h0 => exact ⟨by simp [PidSt.run], by simp [PidSt.run]⟩
  | hs es e ih => rw [pid_run_snoc]; exact codeInv_step es e ih

/-- No two entries of the table are for the same process; a process whose code is known has none. -/
structure GoneInv (s : PidSt) : Prop where
  uniq : ∀ pid pid' e e', s.table pid = some e → s.table pid' = some e' → e.inst = e'.inst → pid = pid'
  gone : ∀ (h : Nat) (p : PopenObj), s.children[h]? = some p → p.returncode ≠ none → ∀ pid e, s.table pid = some e → e.inst ≠ p.inst

theorem goneInv_same {s s' : PidSt} (hg : GoneInv s) (h : ∀ q e, s'.table q = some e → ∃ e', s.table q = some e' ∧ e'.inst = e.inst)
    (hk : ∀ (h : Nat) (p : PopenObj), s'.children[h]? = some p → p.returncode ≠ none → s.children[h]? = some p) : GoneInv s' := by
  refine ⟨fun q q' e e' h1 h2 h3 => ?_, fun i p hp hr q e he => ?_⟩
  · obtain ⟨x, hx, hxi⟩ := h q e h1
    obtain ⟨y, hy, hyi⟩ := h q' e' h2
    exact hg.uniq q q' x y hx hy (by rw [hxi, hyi, h3])
  · obtain ⟨x, hx, hxi⟩ := h q e he
    rw [← hxi]
    exact hg.gone i p (hk i p hp hr) hr q x hx

theorem goneInv_new {s s' : PidSt} (hg : GoneInv s) (hi : PidInv s) (pid : Nat) (x : PidEntry) (hx : x.inst = s.next) (hs : s'.table = (s.put pid (some x)).table)
    (hk : ∀ (h : Nat) (p : PopenObj), s'.children[h]? = some p → p.returncode ≠ none → s.children[h]? = some p) : GoneInv s' := by
  refine ⟨fun q q' e e' h1 h2 h3 => ?_, fun i p hp hr q e he => ?_⟩
  · rw [hs] at h1 h2
    simp only [PidSt.put] at h1 h2
    split at h1
    · next hq =>
      split at h2
      · next hq' => rw [hq, hq']
      · have := hi.old _ _ h2
        simp only [Option.some.injEq] at h1
        subst h1
        omega
    · split at h2
      · have := hi.old _ _ h1
        simp only [Option.some.injEq] at h2
        subst h2
        omega
      · exact hg.uniq q q' e e' h1 h2 h3
  · rw [hs] at he
    simp only [PidSt.put] at he
    have hp' := hk i p hp hr
    split at he
    · have := hi.oldc i p hp'
      simp only [Option.some.injEq] at he
      subst he
      omega
    · exact hg.gone i p hp' hr q e he

theorem goneInv_poll {s} (hg : GoneInv s) (hi : PidInv s) (h : Nat) (p : PopenObj) (hp : s.children[h]? = some p) : GoneInv (s.poll h p).1 := by
  unfold PidSt.poll
  split
  · exact hg
  · next hr =>
    obtain ⟨e, he, h1, h2, -⟩ := hi.live h p hp hr
    obtain ⟨inst, code, ours, allowed⟩ := e
    simp only at h1 h2
    subst h1 h2
    rw [he]
    cases code with
    | none => exact hg
    | some c =>
      simp only
      refine ⟨fun q q' e e' h1 h2 h3 => ?_, fun i p' hp' hr' q e hq => ?_⟩
      · simp only [PidSt.put] at h1 h2
        split at h1
        · cases h1
        · split at h2
          · cases h2
          · exact hg.uniq q q' e e' h1 h2 h3
      · simp only [PidSt.put] at hq
        split at hq
        · cases hq
        · next hne =>
          rcases set_get hp' with ⟨-, hp'⟩ | ⟨-, rfl⟩
          · exact hg.gone i p' hp' hr' q e hq
          · exact fun hh => hne (hg.uniq q p.pid e _ hq he hh)

theorem goneInv_kill {s} (hg : GoneInv s) (who pid wanted) : GoneInv (s.osKill who pid wanted).1 := by
  unfold PidSt.osKill
  split
  · exact hg
  · next x hx =>
    split
    · exact hg
    · refine goneInv_same hg (fun q e he => ?_) fun _ _ h _ => h
      simp only [PidSt.put] at he
      split at he
      · next hq => subst hq; simp only [Option.some.injEq] at he; subst he; exact ⟨x, hx, rfl⟩
      · exact ⟨e, he, rfl⟩

theorem goneInv_step {s} (hg : GoneInv s) (hi : PidInv s) (e : PidEv) : GoneInv (s.step e).1 := by
  cases e with
  | spawn pid =>
    simp only [PidSt.step]
    split
    · exact hg
    · refine goneInv_new hg hi pid _ rfl rfl fun h p hp hr => ?_
      rcases Nat.lt_or_ge h s.children.length with hl | hl
      · rwa [List.getElem?_append_left hl] at hp
      · rw [List.getElem?_append_right hl] at hp
        have := List.mem_of_getElem? hp
        simp only [List.mem_singleton] at this
        subst this
        exact absurd rfl hr
  | daemon pid =>
    simp only [PidSt.step]
    split
    · exact hg
    · exact goneInv_new hg hi pid _ rfl rfl fun _ _ h _ => h
  | other pid a =>
    simp only [PidSt.step]
    split
    · exact hg
    · exact goneInv_new hg hi pid _ rfl rfl fun _ _ h _ => h
  | exits pid code =>
    simp only [PidSt.step]
    split
    · next x hx =>
      refine goneInv_same hg (fun q e he => ?_) fun _ _ h _ => h
      simp only [PidSt.put] at he
      split at he
      · next hq => subst hq; simp only [Option.some.injEq] at he; subst he; exact ⟨x, hx, rfl⟩
      · exact ⟨e, he, rfl⟩
    · exact hg
  | reaped pid =>
    simp only [PidSt.step]
    split
    · refine goneInv_same hg (fun q e he => ?_) fun _ _ h _ => h
      simp only [PidSt.put] at he
      split at he
      · cases he
      · exact ⟨e, he, rfl⟩
    · exact hg
  | poll h =>
    simp only [PidSt.step]
    split
    · exact hg
    · next p hp => exact goneInv_poll hg hi h p hp
  | killCheck t h =>
    simp only [PidSt.step]
    split
    · exact hg
    · exact hg
    · next p _ hp =>
      have := goneInv_poll hg hi h p hp
      generalize s.poll h p = r at this ⊢
      obtain ⟨s', _ | c⟩ := r
      · exact ⟨this.uniq, this.gone⟩
      · exact this
  | killSend t =>
    simp only [PidSt.step]
    split
    · exact hg
    · have hg' : GoneInv { s with pending := fun x => if x = t then none else s.pending x } := ⟨hg.uniq, hg.gone⟩
      split
      · exact hg'
      · exact goneInv_kill hg' _ _ _
  | killDaemon d =>
    simp only [PidSt.step]
    split
    · exact hg
    · exact goneInv_kill hg _ _ _
  | clean h =>
    simp only [PidSt.step]
    split
    · exact hg
    · exact goneInv_kill hg _ _ _

theorem goneInv_run (es : List PidEv) : GoneInv (PidSt.run {} es).1 := by
  induction es using snoc_induction with
  | h0 => exact ⟨by simp [PidSt.run], by simp [PidSt.run]⟩
  | hs es e ih => rw [pid_run_snoc]; exact goneInv_step ih (pidInv_run es) e

/-- **C113** In every history, `poll()` of a child gives None exactly as long as the process it was made for runs; otherwise it gives the code with which that very process ended. -/
theorem C113_code (es : List PidEv) (i : Nat) (p : PopenObj) (hp : (PidSt.run {} es).1.children[i]? = some p) :
    ∃ r, ((PidSt.run {} es).1.step (.poll i)).2 = [.code r] ∧
      (r = none ↔ ∃ e, (PidSt.run {} es).1.table p.pid = some e ∧ e.inst = p.inst ∧ e.code = none) ∧ ∀ c, r = some c → EndedWith es p.inst c := by
  have hi := pidInv_run es
  have hc := codeInv_run es
  refine ⟨((PidSt.run {} es).1.poll i p).2, by simp only [PidSt.step, hp], ?_⟩
  unfold PidSt.poll
  cases hr : p.returncode with
  | some c =>
    refine ⟨⟨by simp, ?_⟩, fun c' h => ?_⟩
    · rintro ⟨e, he, h1, -⟩
      exact absurd h1 ((goneInv_run es).gone i p hp (by simp [hr]) _ _ he)
    · simp only [Option.some.injEq] at h
      subst h
      exact hc.known i p c hp hr
  | none =>
    obtain ⟨e, he, h1, h2, -⟩ := hi.live i p hp hr
    obtain ⟨inst, code, ours, allowed⟩ := e
    simp only at h1 h2
    subst h1 h2
    rw [he]
    cases code with
    | none => simp
    | some c =>
      refine ⟨⟨by simp, ?_⟩, ?_⟩
      · rintro ⟨e, he', -, hn⟩
        simp only [Option.some.injEq] at he'
        subst he'
        cases hn
      · intro c' h
        simp only [Option.some.injEq] at h
        subst h
        exact hc.entry _ _ _ he rfl

/-- Once known, the code of a child does not change. -/
theorem code_kept {s : PidSt} (e : PidEv) {i : Nat} {p : PopenObj} {c : Int} (hp : s.children[i]? = some p) (hr : p.returncode = some c) :
    ∃ p', (s.step e).1.children[i]? = some p' ∧ p'.returncode = some c := by
  have hpoll : ∀ (h : Nat) (q : PopenObj), s.children[h]? = some q → ∃ p', (s.poll h q).1.children[i]? = some p' ∧ p'.returncode = some c := by
    intro h q hq
    have hset : q.returncode = none → ∀ x, (s.children.set h x)[i]? = some p := by
      intro hn x
      have : h ≠ i := by rintro rfl; rw [hp] at hq; cases hq; rw [hr] at hn; cases hn
      rw [List.getElem?_set_ne this, hp]
    unfold PidSt.poll
    split
    · exact ⟨p, hp, hr⟩
    · next hn =>
      split
      · exact ⟨p, hset hn _, hr⟩
      · exact ⟨p, hp, hr⟩
      · exact ⟨p, hset hn _, hr⟩
  have hkill : ∀ (s' : PidSt), s'.children = s.children → ∀ who pid w, (s'.osKill who pid w).1.children[i]? = some p := by
    intro s' hs who pid w
    unfold PidSt.osKill
    split
    · rw [hs, hp]
    · split
      · rw [hs, hp]
      · simp only [PidSt.put, hs, hp]
  cases e with
  | spawn pid =>
    simp only [PidSt.step]
    split
    · exact ⟨p, hp, hr⟩
    · refine ⟨p, ?_, hr⟩
      simp only [PidSt.put]
      rw [List.getElem?_append_left (List.getElem?_eq_some_iff.1 hp).1, hp]
  | daemon pid => simp only [PidSt.step]; split <;> exact ⟨p, hp, hr⟩
  | other pid a => simp only [PidSt.step]; split <;> exact ⟨p, hp, hr⟩
  | exits pid code => simp only [PidSt.step]; split <;> exact ⟨p, hp, hr⟩
  | reaped pid => simp only [PidSt.step]; split <;> exact ⟨p, hp, hr⟩
  | poll h =>
    simp only [PidSt.step]
    split
    · exact ⟨p, hp, hr⟩
    · next q hq => exact hpoll h q hq
  | killCheck t h =>
    simp only [PidSt.step]
    split
    · exact ⟨p, hp, hr⟩
    · exact ⟨p, hp, hr⟩
    · next q _ hq =>
      have := hpoll h q hq
      generalize s.poll h q = r at this ⊢
      obtain ⟨s', _ | c⟩ := r <;> exact this
  | killSend t =>
    simp only [PidSt.step]
    split
    · exact ⟨p, hp, hr⟩
    · split
      · exact ⟨p, hp, hr⟩
      · exact ⟨p, hkill { s with pending := fun x => if x = t then none else s.pending x } rfl _ _ _, hr⟩
  | killDaemon d =>
    simp only [PidSt.step]
    split
    · exact ⟨p, hp, hr⟩
    · exact ⟨p, hkill _ rfl _ _ _, hr⟩
  | clean h =>
    simp only [PidSt.step]
    split
    · exact ⟨p, hp, hr⟩
    · exact ⟨p, hkill _ rfl _ _ _, hr⟩

/-- **C113** Once `poll()` has given a code, every later `poll()` gives the same, whatever happens in between; from whatever state. -/
theorem C113_kept (s : PidSt) (i : Nat) (c : Int) (h : (s.step (.poll i)).2 = [.code (some c)]) (es : List PidEv) :
    (((s.step (.poll i)).1.run es).1.step (.poll i)).2 = [.code (some c)] := by
  have key : ∃ p, (s.step (.poll i)).1.children[i]? = some p ∧ p.returncode = some c := by
    simp only [PidSt.step] at h ⊢
    split at h
    · cases h
    · next p hp =>
      simp only [List.cons.injEq, PidOut.code.injEq, and_true] at h
      simp only [hp]
      have hl := (List.getElem?_eq_some_iff.1 hp).1
      revert h
      unfold PidSt.poll
      split
      · next c' hr => intro h; simp only [Option.some.injEq] at h; subst h; exact ⟨p, hp, hr⟩
      · split
        · intro h; simp only [Option.some.injEq] at h; subst h; exact ⟨_, List.getElem?_set_self hl, rfl⟩
        · intro h; cases h
        · intro h; simp only [Option.some.injEq] at h; subst h; exact ⟨_, List.getElem?_set_self hl, rfl⟩
  generalize (s.step (.poll i)).1 = s' at key
  clear h
  induction es generalizing s' with
  | nil =>
    obtain ⟨p, hp, hr⟩ := key
    simp only [PidSt.run, PidSt.step, hp, PidSt.poll, hr]
  | cons e es ih =>
    obtain ⟨p, hp, hr⟩ := key
    exact ih _ (code_kept e hp hr)

namespace Ex

/-- C113: a child ends with 3; its pid is given to another process, which ends with 5: the code stays 3. -/
example : (PidSt.run {} [.spawn 8, .poll 0, .exits 8 3, .poll 0, .other 8 true, .exits 8 5, .poll 0]).2 = [.code none, .code (some 3), .code (some 3)] := by decide
/-- C113: a child that is killed ends with -9. -/
example : EndedWith [.spawn 8, .killCheck 1 0, .killSend 1] 0 (-9) :=
  ⟨[.spawn 8, .killCheck 1 0], .killSend 1, [], 8, { inst := 0, ours := true }, rfl, by simp [PidSt.run, PidSt.step, PidSt.put, PidSt.poll], rfl, rfl,
    .inr ⟨rfl, .child, 0, by simp [PidSt.run, PidSt.step, PidSt.put, PidSt.poll, PidSt.osKill]⟩⟩

end Ex

example := C113_code [.spawn 7, .spawn 8, .exits 8 3] 1 ⟨8, 1, none⟩ rfl
example := C113_kept (PidSt.run {} [.spawn 8, .exits 8 3]).1 0 3 (by simp [PidSt.run, PidSt.step, PidSt.put, PidSt.poll]) [.other 8 true, .exits 8 5]

end Verif
