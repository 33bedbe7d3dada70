import Verif.Model.Kill
import Verif.Proof.Registry
/-!
# C100: killing reaches the process meant, and no other
-/
namespace Verif

/-- No thread polls a child (nor begins to kill it) while another one is between the check and the signal of a kill of this child. -/
def PolledAlone (es : List PidEv) : Prop :=
  ∀ x e y, es = x ++ e :: y → ∀ h, (e = .poll h ∨ ∃ t, e = .killCheck t h) → ∀ t, (PidSt.run {} x).1.pending t ≠ some h

theorem pid_run_append (s : PidSt) (a b : List PidEv) : s.run (a ++ b) = (((s.run a).1.run b).1, (s.run a).2 ++ ((s.run a).1.run b).2) := by
  induction a generalizing s with
  | nil => simp [PidSt.run]
  | cons e a ih =>
    simp only [List.cons_append, PidSt.run, ih]
    simp

/-- What holds in all histories. -/
structure PidInv (s : PidSt) : Prop where
  live : ∀ (h : Nat) (p : PopenObj), s.children[h]? = some p → p.returncode = none → ∃ e, s.table p.pid = some e ∧ e.inst = p.inst ∧ e.ours = true ∧ e.allowed = true
  old : ∀ pid e, s.table pid = some e → e.inst < s.next
  oldc : ∀ (h : Nat) (p : PopenObj), s.children[h]? = some p → p.inst < s.next
  diff : ∀ (h h' : Nat) (p p' : PopenObj), s.children[h]? = some p → s.children[h']? = some p' → p.inst = p'.inst → h = h'

theorem pidInv_put {s : PidSt} (hi : PidInv s) (pid : Nat) (e e' : PidEntry) (he : s.table pid = some e) (h1 : e'.inst = e.inst) (h2 : e'.ours = e.ours) (h3 : e'.allowed = e.allowed) :
    PidInv (s.put pid (some e')) := by
  refine ⟨fun h p hp hr => ?_, fun q x hx => ?_, hi.oldc, hi.diff⟩
  · obtain ⟨x, hx, a, b, c⟩ := hi.live h p hp hr
    by_cases hq : p.pid = pid
    · rw [hq, he] at hx
      cases hx
      exact ⟨e', by simp [PidSt.put, hq], by rw [h1, a], by rw [h2, b], by rw [h3, c]⟩
    · exact ⟨x, by simp [PidSt.put, hq, hx], a, b, c⟩
  · simp only [PidSt.put] at hx
    split at hx
    · cases hx; rw [h1]; exact hi.old pid e he
    · exact hi.old q x hx

theorem pidInv_new {s : PidSt} (hi : PidInv s) (pid : Nat) (he : s.table pid = none) (e : PidEntry) (h1 : e.inst = s.next) (ds : List (Nat × Nat)) :
    PidInv { s.put pid (some e) with next := s.next + 1, daemons := ds } := by
  refine ⟨fun h p hp hr => ?_, fun q x hx => ?_, fun h p hp => Nat.lt_succ_of_lt (hi.oldc h p hp), hi.diff⟩
  · obtain ⟨x, hx, a⟩ := hi.live h p hp hr
    have : p.pid ≠ pid := by rintro rfl; rw [he] at hx; cases hx
    exact ⟨x, by simp [PidSt.put, this, hx], a⟩
  · simp only [PidSt.put] at hx
    split at hx
    · cases hx; simp only [h1]; omega
    · exact Nat.lt_succ_of_lt (hi.old q x hx)

theorem pidInv_spawn {s : PidSt} (hi : PidInv s) (pid : Nat) (he : s.table pid = none) :
    PidInv { s.put pid (some { inst := s.next, ours := true }) with next := s.next + 1, children := s.children ++ [{ pid, inst := s.next }] } := by
  have hget : ∀ (h : Nat) (p : PopenObj), (s.children ++ [{ pid, inst := s.next }])[h]? = some p → s.children[h]? = some p ∨ (h = s.children.length ∧ p = { pid, inst := s.next }) := by
    intro h p hp
    rcases Nat.lt_trichotomy h s.children.length with hl | hl | hl
    · rw [List.getElem?_append_left hl] at hp; exact .inl hp
    · subst hl
      simp only [List.getElem?_concat_length, Option.some.injEq] at hp
      exact .inr ⟨rfl, hp.symm⟩
    · rw [List.getElem?_eq_none (by simp; omega)] at hp; cases hp
  refine ⟨fun h p hp hr => ?_, fun q x hx => ?_, fun h p hp => ?_, fun h h' p p' hp hp' hq => ?_⟩
  · rcases hget h p hp with hp | ⟨rfl, rfl⟩
    · obtain ⟨x, hx, a⟩ := hi.live h p hp hr
      have : p.pid ≠ pid := by rintro rfl; rw [he] at hx; cases hx
      exact ⟨x, by simp [PidSt.put, this, hx], a⟩
    · exact ⟨_, by simp [PidSt.put]; rfl, rfl, rfl, rfl⟩
  · simp only [PidSt.put] at hx
    split at hx
    · cases hx; simp
    · exact Nat.lt_succ_of_lt (hi.old q x hx)
  · rcases hget h p hp with hp | ⟨rfl, rfl⟩
    · exact Nat.lt_succ_of_lt (hi.oldc h p hp)
    · simp
  · rcases hget h p hp with hp | ⟨rfl, rfl⟩ <;> rcases hget h' p' hp' with hp' | ⟨rfl, rfl⟩
    · exact hi.diff h h' p p' hp hp' hq
    · have := hi.oldc h p hp; simp only at hq; omega
    · have := hi.oldc h' p' hp'; simp only at hq; omega
    · rfl

theorem set_get {l : List PopenObj} {h h' : Nat} {a p : PopenObj} (hp : (l.set h a)[h']? = some p) : (h' ≠ h ∧ l[h']? = some p) ∨ (h' = h ∧ p = a) := by
  rw [List.getElem?_set] at hp
  split at hp
  · next hh =>
    split at hp
    · cases hp; exact .inr ⟨hh.symm, rfl⟩
    · cases hp
  · next hh => exact .inl ⟨fun e => hh e.symm, hp⟩

theorem pidInv_code {s : PidSt} (hi : PidInv s) (h : Nat) (p : PopenObj) (hp : s.children[h]? = some p) (c : Int) (tab : Nat → Option PidEntry)
    (htab : ∀ q, tab q = s.table q ∨ (q = p.pid ∧ tab q = none)) (hpr : p.returncode = none) :
    PidInv { s with table := tab, children := s.children.set h { p with returncode := some c } } := by
  refine ⟨fun h' p' hp' hr => ?_, fun q x hx => ?_, fun h' p' hp' => ?_, fun h1 h2 p1 p2 hp1 hp2 hq => ?_⟩
  · rcases set_get hp' with ⟨hne, hp'⟩ | ⟨-, rfl⟩
    · obtain ⟨x, hx, a, b⟩ := hi.live h' p' hp' hr
      refine ⟨x, ?_, a, b⟩
      rcases htab p'.pid with ht | ⟨ht, -⟩
      · simp only [ht, hx]
      · obtain ⟨y, hy, a', -⟩ := hi.live h p hp hpr
        rw [ht, hy] at hx
        cases hx
        exact absurd (hi.diff h' h p' p hp' hp (by rw [← a, ← a'])) hne
    · cases hr
  · rcases htab q with ht | ⟨-, ht⟩
    · simp only [ht] at hx; exact hi.old q x hx
    · simp only [ht] at hx; cases hx
  · rcases set_get hp' with ⟨-, hp'⟩ | ⟨-, rfl⟩
    · exact hi.oldc h' p' hp'
    · exact hi.oldc h p hp
  · rcases set_get hp1 with ⟨-, g1⟩ | ⟨g1, rfl⟩ <;> rcases set_get hp2 with ⟨-, g2⟩ | ⟨g2, rfl⟩
    · exact hi.diff h1 h2 p1 p2 g1 g2 hq
    · rw [g2]; exact hi.diff h1 h p1 p g1 hp hq
    · rw [g1]; exact hi.diff h h2 p p2 hp g2 hq
    · rw [g1, g2]

theorem pidInv_poll {s : PidSt} (hi : PidInv s) (h : Nat) (p : PopenObj) (hp : s.children[h]? = some p) : PidInv (s.poll h p).1 := by
  unfold PidSt.poll
  split
  · exact hi
  · next hr =>
    split
    · refine pidInv_code hi h p hp _ _ (fun q => ?_) hr
      by_cases hq : q = p.pid
      · exact .inr ⟨hq, by simp [hq, PidSt.put]⟩
      · exact .inl (by simp [hq, PidSt.put])
    · exact hi
    · exact pidInv_code hi h p hp _ _ (fun q => .inl rfl) hr

theorem pidInv_kill {s : PidSt} (hi : PidInv s) (who pid wanted) : PidInv (s.osKill who pid wanted).1 := by
  unfold PidSt.osKill
  split
  · exact hi
  · next e he =>
    split
    · exact hi
    · exact pidInv_put hi pid e _ he rfl rfl rfl

theorem pidInv_step {s : PidSt} (hi : PidInv s) (e : PidEv) : PidInv (s.step e).1 := by
  cases e with
  | spawn pid =>
    simp only [PidSt.step]
    split
    · exact hi
    · exact pidInv_spawn hi pid ‹_›
  | daemon pid =>
    simp only [PidSt.step]
    split
    · exact hi
    · exact pidInv_new hi pid ‹_› _ rfl _
  | other pid a =>
    simp only [PidSt.step]
    split
    · exact hi
    · exact pidInv_new hi pid ‹_› _ rfl _
  | exits pid c =>
    simp only [PidSt.step]
    split
    · next e he => exact pidInv_put hi pid e _ he rfl rfl rfl
    · exact hi
  | reaped pid =>
    simp only [PidSt.step]
    split
    · next inst c allowed he =>
      refine ⟨fun h p hp hr => ?_, fun q x hx => ?_, hi.oldc, hi.diff⟩
      · obtain ⟨x, hx, a, b, c⟩ := hi.live h p hp hr
        have : p.pid ≠ pid := by rintro rfl; rw [he] at hx; cases hx; cases b
        exact ⟨x, by simp [PidSt.put, this, hx], a, b, c⟩
      · simp only [PidSt.put] at hx
        split at hx
        · cases hx
        · exact hi.old q x hx
    · exact hi
  | poll h =>
    simp only [PidSt.step]
    split
    · exact hi
    · exact pidInv_poll hi h _ ‹_›
  | killCheck t h =>
    simp only [PidSt.step]
    split
    · exact hi
    · exact hi
    · next p _ hp =>
      have := pidInv_poll hi h p hp
      split
      · next heq => rw [heq] at this; exact this
      · next heq => rw [heq] at this; exact ⟨this.live, this.old, this.oldc, this.diff⟩
  | killSend t =>
    simp only [PidSt.step]
    split
    · exact hi
    · have hi' : ∀ f, PidInv { s with pending := f } := fun f => ⟨hi.live, hi.old, hi.oldc, hi.diff⟩
      split
      · exact hi' _
      · exact pidInv_kill (hi' _) _ _ _
  | killDaemon d =>
    simp only [PidSt.step]
    split
    · exact hi
    · exact pidInv_kill hi _ _ _
  | clean h =>
    simp only [PidSt.step]
    split
    · exact hi
    · exact pidInv_kill hi _ _ _

theorem pid_run_snoc (s : PidSt) (es : List PidEv) (e : PidEv) : s.run (es ++ [e]) = (((s.run es).1.step e).1, (s.run es).2 ++ ((s.run es).1.step e).2) := by
  rw [pid_run_append]
  simp [PidSt.run]

theorem pidInv_run (es : List PidEv) : PidInv (PidSt.run {} es).1 := by
  induction es using snoc_induction with
  | h0 => exact ⟨by simp [PidSt.run], by simp [PidSt.run], by simp [PidSt.run], by simp [PidSt.run]⟩
  | hs es e ih => rw [pid_run_snoc]; exact pidInv_step ih e

/-- With nobody polling in between, a child about to be signalled has not been waited for. -/
def PendInv (s : PidSt) : Prop := ∀ t h, s.pending t = some h → ∃ p : PopenObj, s.children[h]? = some p ∧ p.returncode = none

theorem pend_kill {s : PidSt} (hi : PendInv s) (who pid wanted) : PendInv (s.osKill who pid wanted).1 := by
  unfold PidSt.osKill
  split
  · exact hi
  · split <;> exact hi

theorem pend_poll {s : PidSt} (hi : PendInv s) (h : Nat) (p : PopenObj) (hno : ∀ t, s.pending t ≠ some h) : PendInv (s.poll h p).1 := by
  have key : ∀ tab (c : PopenObj), PendInv { s with table := tab, children := s.children.set h c } := by
    intro tab c t h' ht
    obtain ⟨q, hq, hr⟩ := hi t h' ht
    refine ⟨q, ?_, hr⟩
    have : h ≠ h' := by rintro rfl; exact hno t ht
    simp only [List.getElem?_set, if_neg this, hq]
  unfold PidSt.poll
  split
  · exact hi
  · split
    · exact key _ _
    · exact hi
    · exact key s.table _

theorem poll_none {s s' : PidSt} {h : Nat} {p : PopenObj} (hp : s.poll h p = (s', none)) : s' = s ∧ p.returncode = none := by
  unfold PidSt.poll at hp
  split at hp
  · cases hp
  · next hr =>
    split at hp
    · cases hp
    · cases hp; exact ⟨rfl, hr⟩
    · cases hp

theorem pend_step {s : PidSt} (hi : PendInv s) (e : PidEv) (hno : ∀ h, (e = .poll h ∨ ∃ t, e = .killCheck t h) → ∀ t, s.pending t ≠ some h) : PendInv (s.step e).1 := by
  cases e with
  | spawn pid =>
    simp only [PidSt.step]
    split
    · exact hi
    · intro t h ht
      obtain ⟨p, hp, hr⟩ := hi t h ht
      exact ⟨p, by
        have hl := (List.getElem?_eq_some_iff.1 hp).1
        simp only [List.getElem?_append_left hl, hp], hr⟩
  | daemon pid => simp only [PidSt.step]; split <;> exact hi
  | other pid a => simp only [PidSt.step]; split <;> exact hi
  | exits pid c => simp only [PidSt.step]; split <;> exact hi
  | reaped pid => simp only [PidSt.step]; split <;> exact hi
  | poll h =>
    simp only [PidSt.step]
    split
    · exact hi
    · exact pend_poll hi h _ (hno h (.inl rfl))
  | killCheck t h =>
    simp only [PidSt.step]
    split
    · exact hi
    · exact hi
    · next p _ hp =>
      have := pend_poll hi h p (hno h (.inr ⟨t, rfl⟩))
      split
      · next heq => rw [heq] at this; exact this
      · next heq =>
        obtain ⟨rfl, hr⟩ := poll_none heq
        intro t' h' ht
        simp only at ht
        split at ht
        · cases ht; exact ⟨p, hp, hr⟩
        · exact hi t' h' ht
  | killSend t =>
    simp only [PidSt.step]
    split
    · exact hi
    · have hi' : PendInv { s with pending := fun x => if x = t then none else s.pending x } := by
        intro t' h' ht
        simp only at ht
        split at ht
        · cases ht
        · exact hi t' h' ht
      split
      · exact hi'
      · exact pend_kill hi' _ _ _
  | killDaemon d =>
    simp only [PidSt.step]
    split
    · exact hi
    · exact pend_kill hi _ _ _
  | clean h =>
    simp only [PidSt.step]
    split
    · exact hi
    · exact pend_kill hi _ _ _

theorem alone_snoc {es : List PidEv} {e : PidEv} (h : PolledAlone (es ++ [e])) : PolledAlone es ∧ ∀ h, (e = .poll h ∨ ∃ t, e = .killCheck t h) → ∀ t, (PidSt.run {} es).1.pending t ≠ some h :=
  ⟨fun x e' y hxy => h x e' (y ++ [e]) (by rw [hxy]; simp), h es e [] rfl⟩

theorem pend_run (es : List PidEv) (h : PolledAlone es) : PendInv (PidSt.run {} es).1 := by
  induction es using snoc_induction with
  | h0 => intro t h ht; cases ht
  | hs es e ih => rw [pid_run_snoc]; exact pend_step (ih (alone_snoc h).1) e (alone_snoc h).2

theorem osKill_by {s : PidSt} {who pid wanted x target w} (h : .signal x target w ∈ (s.osKill who pid wanted).2) :
    x = who ∧ w = wanted ∧ ∃ e, s.table pid = some e ∧ e.inst = target := by
  unfold PidSt.osKill at h
  split at h
  · simp at h
  · next e he =>
    split at h
    · simp at h
    · simp only [List.mem_singleton, PidOut.signal.injEq] at h
      exact ⟨h.1, h.2.2, e, he, h.2.1.symm⟩

/-- **C100** In every history of processes that start, end and are waited for, with pids used again, in which no thread polls a child while another is killing it: `ChildProcess.kill`
signals only the process it was made for. -/
theorem C100_child_partial (es : List PidEv) (ha : PolledAlone es) (target wanted : Nat) (h : .signal .child target wanted ∈ (PidSt.run {} es).2) : target = wanted := by
  induction es using snoc_induction with
  | h0 => cases h
  | hs es e ih =>
    rw [pid_run_snoc] at h
    simp only [List.mem_append] at h
    rcases h with h | h
    · exact ih (alone_snoc ha).1 h
    · have hi := pidInv_run es
      have hp := pend_run es (alone_snoc ha).1
      generalize (PidSt.run {} es).1 = s at h hi hp
      cases e with
      | spawn pid => simp only [PidSt.step] at h; split at h <;> cases h
      | daemon pid => simp only [PidSt.step] at h; split at h <;> cases h
      | other pid a => simp only [PidSt.step] at h; split at h <;> cases h
      | exits pid c => simp only [PidSt.step] at h; split at h <;> cases h
      | reaped pid => simp only [PidSt.step] at h; split at h <;> cases h
      | poll i => simp only [PidSt.step] at h; split at h <;> simp at h
      | killCheck t i =>
        simp only [PidSt.step] at h
        split at h
        · cases h
        · cases h
        · split at h <;> cases h
      | killSend t =>
        simp only [PidSt.step] at h
        split at h
        · cases h
        · next i hi' =>
          obtain ⟨p, hp', hr⟩ := hp t i hi'
          simp only [hp'] at h
          obtain ⟨-, rfl, e, he, rfl⟩ := osKill_by h
          obtain ⟨e', he', hinst, -⟩ := hi.live i p hp' hr
          have he : s.table p.pid = some e := he
          rw [he] at he'
          cases he'
          exact hinst
      | killDaemon d =>
        simp only [PidSt.step] at h
        split at h
        · cases h
        · cases (osKill_by h).1
      | clean i =>
        simp only [PidSt.step] at h
        split at h
        · cases h
        · cases (osKill_by h).1

/-- **C100** A running child is killed by `kill`, in every history: it ends with code -9, nothing else changes. -/
theorem C100_kills (es : List PidEv) (i t : Nat) (p : PopenObj) (hp : (PidSt.run {} es).1.children[i]? = some p) (ht : (PidSt.run {} es).1.pending t = none)
    (e : PidEntry) (he : (PidSt.run {} es).1.table p.pid = some e) (hc : e.code = none) (hr : p.returncode = none) :
    ((PidSt.run {} es).1.run [.killCheck t i, .killSend t]).2 = [.signal .child p.inst p.inst] ∧
    ∀ q, ((PidSt.run {} es).1.run [.killCheck t i, .killSend t]).1.table q = if q = p.pid then some { e with code := some (-9) } else (PidSt.run {} es).1.table q := by
  obtain ⟨e', he', h1, h2, h3⟩ := (pidInv_run es).live i p hp hr
  rw [he] at he'
  cases he'
  generalize (PidSt.run {} es).1 = s at *
  obtain ⟨inst, code, ours, allowed⟩ := e
  simp only at hc h1 h2 h3
  subst hc h1 h2 h3
  have hpoll : s.poll i p = (s, none) := by simp only [PidSt.poll, hr, he]
  have hs1 : s.step (.killCheck t i) = ({ s with pending := fun x => if x = t then some i else s.pending x }, []) := by simp only [PidSt.step, ht, hp, hpoll]
  simp only [PidSt.run, hs1]
  simp only [PidSt.step, if_true, hp, PidSt.osKill, he, Bool.true_eq_false, if_false, Option.getD_none]
  exact ⟨by simp, fun q => rfl⟩

/-- **C100** A child that has ended is not signalled. -/
theorem C100_ended (es : List PidEv) (i t : Nat) (p : PopenObj) (hp : (PidSt.run {} es).1.children[i]? = some p) (ht : (PidSt.run {} es).1.pending t = none)
    (h : p.returncode ≠ none ∨ ∃ e, (PidSt.run {} es).1.table p.pid = some e ∧ e.code ≠ none) :
    ((PidSt.run {} es).1.run [.killCheck t i, .killSend t]).2 = [] := by
  have hlive := (pidInv_run es).live i p hp
  generalize (PidSt.run {} es).1 = s at *
  have hs : ∃ s' c, s.poll i p = (s', some c) ∧ s'.pending = s.pending := by
    cases hr : p.returncode with
    | some c => exact ⟨s, c, by simp [PidSt.poll, hr], rfl⟩
    | none =>
      rcases h with h | ⟨e, he, hc⟩
      · exact absurd hr h
      · obtain ⟨e', he', -, h2, -⟩ := hlive hr
        rw [he] at he'
        cases he'
        obtain ⟨inst, code, ours, allowed⟩ := e
        simp only at hc h2
        subst h2
        cases code with
        | none => exact absurd rfl hc
        | some c =>
          have hpoll : s.poll i p = ({ s.put p.pid none with children := s.children.set i { p with returncode := some c } }, some c) := by simp only [PidSt.poll, hr, he]
          exact ⟨_, c, hpoll, rfl⟩
  obtain ⟨s', c, hpoll, hpe⟩ := hs
  have hs1 : s.step (.killCheck t i) = (s', []) := by simp only [PidSt.step, ht, hp, hpoll]
  have hs2 : s'.step (.killSend t) = (s', []) := by simp only [PidSt.step, hpe, ht]
  simp only [PidSt.run, hs1, hs2, List.append_nil]

/-- **C100 fails** for a daemon: its pid is used again after it has ended, and `kill` kills the process that has it now. -/
theorem C100_fails_daemon (pid : Nat) :
    (PidSt.run {} [.daemon pid, .exits pid 0, .reaped pid, .other pid true, .killDaemon 0]).2 = [.signal .daemon 1 0] := by
  simp [PidSt.run, PidSt.step, PidSt.put, PidSt.osKill]

/-- **C100 fails** for a child if another thread polls it between the check and the signal. -/
theorem C100_fails_race (pid : Nat) :
    (PidSt.run {} [.spawn pid, .killCheck 1 0, .exits pid 0, .poll 0, .other pid true, .killSend 1]).2 = [.code (some 0), .signal .child 1 0] := by
  simp [PidSt.run, PidSt.step, PidSt.put, PidSt.osKill, PidSt.poll]

/-- **C100 fails** for `ProcessCleaner`, which signals the pid of a child that has ended and been waited for. -/
theorem C100_fails_cleaner (pid : Nat) :
    (PidSt.run {} [.spawn pid, .exits pid 0, .poll 0, .other pid true, .clean 0]).2 = [.code (some 0), .signal .cleaner 1 0] := by
  simp [PidSt.run, PidSt.step, PidSt.put, PidSt.osKill, PidSt.poll]

/-- **C100** What holds for daemons: `kill` never raises; it signals whatever has the pid, the daemon itself as long as nobody has waited for it; if nothing has the pid, or what has it may
not be signalled, nothing happens. -/
theorem C100_daemon_partial (es : List PidEv) (d pid inst : Nat) (hd : (PidSt.run {} es).1.daemons[d]? = some (pid, inst)) :
    (∀ e, (PidSt.run {} es).1.table pid = some e → e.allowed = true → ((PidSt.run {} es).1.step (.killDaemon d)).2 = [.signal .daemon e.inst inst] ∧
      ((PidSt.run {} es).1.step (.killDaemon d)).1.table pid = some { e with code := some (e.code.getD (-9)) }) ∧
    ((PidSt.run {} es).1.table pid = none ∨ (∃ e, (PidSt.run {} es).1.table pid = some e ∧ e.allowed = false) →
      (PidSt.run {} es).1.step (.killDaemon d) = ((PidSt.run {} es).1, [.missed])) := by
  generalize (PidSt.run {} es).1 = s at *
  refine ⟨fun e he ha => ?_, ?_⟩
  · simp only [PidSt.step, hd, PidSt.osKill, he, ha, Bool.true_eq_false, if_false, PidSt.put, if_true, and_self]
  · rintro (h | ⟨e, he, ha⟩)
    · simp only [PidSt.step, hd, PidSt.osKill, h]
    · simp only [PidSt.step, hd, PidSt.osKill, he, ha, if_true]

/-- Two children, the first killed while it runs, the other polled, its pid used again, then killed: nothing. -/
def Ex.kills : List PidEv := [.spawn 7, .spawn 8, .killCheck 1 0, .poll 1, .killSend 1, .exits 8 3, .poll 1, .other 8 true, .killCheck 1 1, .killSend 1]

example : (PidSt.run {} Ex.kills).2 = [.code none, .signal .child 0 0, .code (some 3)] := by decide

/-! ## Cases that meet the hypotheses -/

theorem polledAlone_nil : PolledAlone [] := by
  intro x e y h
  simp at h

theorem polledAlone_snoc {es : List PidEv} {e : PidEv} (h : PolledAlone es)
    (he : ∀ h, (e = .poll h ∨ ∃ t, e = .killCheck t h) → ∀ t, (PidSt.run {} es).1.pending t ≠ some h) : PolledAlone (es ++ [e]) := by
  intro x e' y hxy
  cases y using snoc_induction with
  | h0 =>
    obtain ⟨rfl, h2⟩ := List.append_inj' hxy rfl
    cases h2
    exact he
  | hs y a _ =>
    rw [← List.cons_append, ← List.append_assoc] at hxy
    exact h x e' y (List.append_inj' hxy rfl).1

/-- In `Ex.kills` nobody polls a child that another thread is about to signal. -/
theorem Ex.kills_alone : PolledAlone Ex.kills := by
  have h1 := polledAlone_snoc (e := .spawn 7) polledAlone_nil (by rintro h (h1 | ⟨t, h1⟩) <;> cases h1)
  have h2 := polledAlone_snoc (e := .spawn 8) h1 (by rintro h (h1 | ⟨t, h1⟩) <;> cases h1)
  have h3 := polledAlone_snoc (e := .killCheck 1 0) h2 (by rintro h (h1 | ⟨t, h1⟩) <;> cases h1 <;> intro t <;> simp [PidSt.run, PidSt.step, PidSt.put])
  have h4 := polledAlone_snoc (e := .poll 1) h3 (by
    rintro h (h1 | ⟨t, h1⟩) <;> cases h1 <;> intro t <;> simp [PidSt.run, PidSt.step, PidSt.put, PidSt.poll])
  have h5 := polledAlone_snoc (e := .killSend 1) h4 (by rintro h (h1 | ⟨t, h1⟩) <;> cases h1)
  have h6 := polledAlone_snoc (e := .exits 8 3) h5 (by rintro h (h1 | ⟨t, h1⟩) <;> cases h1)
  have h7 := polledAlone_snoc (e := .poll 1) h6 (by
    rintro h (h1 | ⟨t, h1⟩) <;> cases h1 <;> intro t <;> simp [PidSt.run, PidSt.step, PidSt.put, PidSt.poll, PidSt.osKill])
  have h8 := polledAlone_snoc (e := .other 8 true) h7 (by rintro h (h1 | ⟨t, h1⟩) <;> cases h1)
  have h9 := polledAlone_snoc (e := .killCheck 1 1) h8 (by
    rintro h (h1 | ⟨t, h1⟩) <;> cases h1 <;> intro t <;> simp [PidSt.run, PidSt.step, PidSt.put, PidSt.poll, PidSt.osKill])
  exact polledAlone_snoc (e := .killSend 1) h9 (by rintro h (h1 | ⟨t, h1⟩) <;> cases h1)

/-- A child is signalled in it. -/
example := C100_child_partial Ex.kills Ex.kills_alone 0 0 (by decide +kernel)

/-- The second of two children runs. -/
example := C100_kills [.spawn 7, .spawn 8, .exits 7 0] 1 1 ⟨8, 1, none⟩ rfl rfl ⟨1, none, true, true⟩ rfl rfl rfl

/-- It has ended and has not been waited for; the first has been waited for. -/
example := C100_ended [.spawn 7, .spawn 8, .exits 8 4] 1 1 ⟨8, 1, none⟩ rfl rfl (.inr ⟨⟨1, some 4, true, true⟩, rfl, by decide⟩)
example := C100_ended [.spawn 7, .exits 7 4, .poll 0, .other 7 true] 0 1 ⟨7, 0, some 4⟩ rfl rfl (.inl (by decide))

/-- A daemon that runs beside a child. -/
example := C100_daemon_partial [.spawn 7, .daemon 9] 0 9 1 rfl

end Verif
