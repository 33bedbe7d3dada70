import Verif.Proof.Family
/-!
# C136: the processes a process started end with it (expected)
-/
namespace Verif

/-- Every process that ends by itself has asked all processes it started (except daemons) to close, or found them gone. -/
theorem C136_asked (es : List FamEv) (r c : Nat) (hr : ((FamSt.init.run es).procs r).pc = .gone) (hk : ((FamSt.init.run es).procs r).killed = false)
    (hc : c ∈ ((FamSt.init.run es).procs r).children) :
    ((FamSt.init.run es).procs c).asked = true ∨ ((FamSt.init.run es).procs c).pc = .gone :=
  (fam_run _ es fam_init).gone r c hc hk hr

/-- **C136 (partial)** Once the program of a process is over, its processes get by themselves, in at most `left` steps and whatever times out, to a
state where none goes on; there all processes it started, and all those they started, are gone, however deep. Missing: those below a process that
was killed or that hangs (`C136_fails`, `C136_fails_hang`). -/
theorem C136_partial (hist es : List FamEv) (r : Nat) (ho : ((FamSt.init.run hist).procs r).over) (hk : ((FamSt.init.run hist).procs r).killed = false)
    (hg : (FamSt.init.run hist).GoOn es) :
    es.length ≤ (FamSt.init.run hist).left ∧
      (((FamSt.init.run hist).run es).Still →
        (∀ p, ((FamSt.init.run hist).run es).Below r p → (((FamSt.init.run hist).run es).procs p).killed = false ∧ (((FamSt.init.run hist).run es).procs p).pc ≠ .stuck) →
        (((FamSt.init.run hist).run es).procs r).pc = .gone ∧ ∀ c, ((FamSt.init.run hist).run es).Below r c → (((FamSt.init.run hist).run es).procs c).pc = .gone) := by
  have hi := fam_run _ hist fam_init
  have hi' := fam_run _ es hi
  obtain ⟨ho', hk'⟩ := fam_over_run _ es hg r ho hk
  refine ⟨by have := fam_goOn_length _ es hg; omega, fun hs hb => ⟨fam_still _ hi' hs r (.inl ho'), fun c hc => fam_all_gone _ hi' hs r ho' hk' hb c hc⟩⟩

/-- From every state the processes get by themselves to one where none goes on. -/
theorem C136_ends (hist : List FamEv) : ∃ es, (FamSt.init.run hist).GoOn es ∧ ((FamSt.init.run hist).run es).Still := fam_exists _ _ (Nat.le_refl _)

/-- While nobody is killed and no `stop()` times out, a process is gone only after all those it started and those they started. -/
theorem C136_order (es : List FamEv) (hk : ∀ p, .kill p ∉ es) (ht : ∀ p, .timeout p ∉ es) (r c : Nat)
    (hr : ((FamSt.init.run es).procs r).pc = .gone) (hc : (FamSt.init.run es).Below r c) : ((FamSt.init.run es).procs c).pc = .gone := by
  have ho := fam_ordered _ es fam_init (by constructor <;> simp [FamSt.init]) hk ht
  induction hc with
  | child c hc => exact ho.gone r c hc hr
  | further p c _ hc ih => exact ho.gone p c hc ih

/-- A process that ends asks those it started last first: when it comes to `c`, all those started before are left. -/
theorem C136_last_first (es : List FamEv) (p c : Nat) (l : List Nat) (hp : ((FamSt.init.run es).procs p).pc = .exiting (c :: l)) :
    ∃ done, ((FamSt.init.run es).procs p).children = l.reverse ++ c :: done ∧
      (((FamSt.init.run es).procs c).pc ≠ .gone →
        ((FamSt.init.run es).step (.stop p)).procs p = { (FamSt.init.run es).procs p with pc := .waiting c l, asked := ((FamSt.init.run es).procs p).asked || p == c } ∧
        (((FamSt.init.run es).step (.stop p)).procs c).asked = true) := by
  have hi := fam_run _ es fam_init
  obtain ⟨d, hd⟩ := (fam_lastFirst _ es fam_init (by constructor <;> simp [FamSt.init])).exiting p _ hp
  refine ⟨d, by simpa using hd, fun hg => ?_⟩
  simp only [FamSt.step, hp, hg, if_false, FamSt.upd]
  by_cases h : p = c
  · subst h; simp
  · simp [h, Ne.symm h]

/-- A daemon goes on whatever becomes of the process that started it and of all others: only a request to close, its own program and signals end it. -/
theorem C136_daemon (hist es : List FamEv) (p : Nat) (hp : p < (FamSt.init.run hist).next) (hr : ((FamSt.init.run hist).procs p).pc = .running)
    (hn : ∀ e ∈ es, e ≠ .ask (FamSt.init.run hist).next ∧ e ≠ .finish (FamSt.init.run hist).next ∧ e ≠ .hang (FamSt.init.run hist).next ∧
      e ≠ .kill (FamSt.init.run hist).next) :
    ((((FamSt.init.run hist).step (.start p true)).run es).procs (FamSt.init.run hist).next).pc = .running ∧
      ((((FamSt.init.run hist).step (.start p true)).run es).procs (FamSt.init.run hist).next).asked = false := by
  have hi := fam_run _ hist fam_init
  have ha : ((FamSt.init.run hist).step (.start p true)).Alone (FamSt.init.run hist).next := by
    refine ⟨?_, ?_, ?_, ?_⟩ <;> simp only [FamSt.step, hp, hr, and_self, if_true, FamSt.upd]
    · omega
    · intro q hq
      split at hq
      · simp at hq
      · exact absurd (hi.old q _ hq) (by omega)
  exact ⟨(fam_alone _ es (fam_step _ _ hi) _ ha hn).2.1, (fam_alone _ es (fam_step _ _ hi) _ ha hn).2.2.1⟩

/-- The main program starts a process, which starts another; the main program kills its child and ends. -/
def Ex.famKill : List FamEv := [.start 0 false, .start 1 false, .kill 1, .finish 0, .stop 0, .exit 0]

/-- **C136 fails**: `kill()` of a child ends the child without its atexit calls: what it started goes on, even after the main program has ended
and nothing is left to do. -/
theorem C136_fails : ∃ es, ((FamSt.init.run es).procs 0).pc = .gone ∧ ((FamSt.init.run es).procs 0).killed = false ∧
    (FamSt.init.run es).Still ∧ (FamSt.init.run es).Below 0 2 ∧ ((FamSt.init.run es).procs 2).pc = .running := by
  refine ⟨Ex.famKill, by decide, by decide, ?_, .further 1 2 (.child 1 (by decide)) (by decide), by decide⟩
  have h3 : (FamSt.init.run Ex.famKill).next = 3 := rfl
  intro e he
  cases e with
  | start | ask | finish | hang | kill => exact he
  | serve p => obtain ⟨h, h1, h2⟩ := he; rw [h3] at h; rcases p with _ | _ | _ | _ <;> first | omega | (revert h1 h2; decide)
  | stop p => obtain ⟨h, c, l, h1⟩ := he; rw [h3] at h; rcases p with _ | _ | _ | _ <;> first | omega | cases h1
  | ended p => obtain ⟨h, c, l, h1, _⟩ := he; rw [h3] at h; rcases p with _ | _ | _ | _ <;> first | omega | cases h1
  | timeout p => obtain ⟨h, c, l, h1⟩ := he; rw [h3] at h; rcases p with _ | _ | _ | _ <;> first | omega | cases h1
  | exit p => obtain ⟨h, h1⟩ := he; rw [h3] at h; rcases p with _ | _ | _ | _ <;> first | omega | cases h1

/-- A child hangs; the main program ends. -/
def Ex.famHang : List FamEv := [.start 0 false, .hang 1, .finish 0, .stop 0, .timeout 0, .exit 0]

/-- **C136 fails** for a child that carries out something that never ends: `stop()` times out, the main program ends without it. -/
theorem C136_fails_hang : ∃ es, ((FamSt.init.run es).procs 0).pc = .gone ∧ ((FamSt.init.run es).procs 0).killed = false ∧
    1 ∈ ((FamSt.init.run es).procs 0).children ∧ ((FamSt.init.run es).procs 1).pc = .stuck :=
  ⟨Ex.famHang, by decide, by decide, by decide, by decide⟩

/-- Two children and a grandchild; the program of the main process is over. -/
def Ex.fam : List FamEv := [.start 0 false, .start 1 false, .start 0 false, .start 0 true, .finish 0]

/-- How they end: the child started last first, the grandchild before its parent. -/
def Ex.famEnd : List FamEv :=
  [.stop 0, .serve 3, .exit 3, .ended 0, .stop 0, .serve 1, .stop 1, .serve 2, .exit 2, .ended 1, .exit 1, .ended 0, .exit 0]

example : ((FamSt.init.run Ex.fam).procs 0).over ∧ ((FamSt.init.run Ex.fam).procs 0).killed = false ∧ (FamSt.init.run Ex.fam).left = 15 := by
  refine ⟨⟨by decide, by decide⟩, by decide, by decide⟩

example : (FamSt.init.run Ex.fam).GoOn Ex.famEnd := by
  refine ⟨⟨by decide, _, _, rfl⟩, ⟨by decide, rfl, rfl⟩, ⟨by decide, rfl⟩, ⟨by decide, _, _, rfl, rfl⟩, ⟨by decide, _, _, rfl⟩, ⟨by decide, rfl, rfl⟩,
    ⟨by decide, _, _, rfl⟩, ⟨by decide, rfl, rfl⟩, ⟨by decide, rfl⟩, ⟨by decide, _, _, rfl, rfl⟩, ⟨by decide, rfl⟩, ⟨by decide, _, _, rfl, rfl⟩, ⟨by decide, rfl⟩, trivial⟩

/-- Everything but the daemon is gone; nothing was killed. -/
example : (List.range 5).map (fun p => (((FamSt.init.run Ex.fam).run Ex.famEnd).procs p).pc) = [.gone, .gone, .gone, .gone, .running] ∧
    (List.range 5).map (fun p => (((FamSt.init.run Ex.fam).run Ex.famEnd).procs p).killed) = [false, false, false, false, false] := by decide

example : ((FamSt.init.run Ex.fam).run Ex.famEnd).Below 0 2 := .further 1 2 (.child 1 (by decide)) (by decide)

example : (∀ p, .kill p ∉ Ex.fam ++ Ex.famEnd) ∧ (∀ p, .timeout p ∉ Ex.fam ++ Ex.famEnd) := by
  simp [Ex.fam, Ex.famEnd]

/-- The child started last is the first to be asked. -/
example : ((FamSt.init.run Ex.fam).procs 0).pc = .exiting [3, 1] ∧ ((FamSt.init.run Ex.fam).procs 3).pc ≠ .gone := by decide

example := C136_order (Ex.fam ++ Ex.famEnd) (by simp [Ex.fam, Ex.famEnd]) (by simp [Ex.fam, Ex.famEnd]) 0 2 (by decide) (.further 1 2 (.child 1 (by decide)) (by decide))
example := C136_asked (Ex.fam ++ Ex.famEnd) 0 3 (by decide) (by decide) (by decide)
example := C136_last_first Ex.fam 0 3 [1] (by decide)

/-- With a timeout the main program may be gone while its child still ends. -/
example : ((FamSt.init.run [.start 0 false, .finish 0, .stop 0, .timeout 0, .exit 0]).procs 0).pc = .gone ∧
    ((FamSt.init.run [.start 0 false, .finish 0, .stop 0, .timeout 0, .exit 0]).procs 1).pc = .running ∧
    ((FamSt.init.run [.start 0 false, .finish 0, .stop 0, .timeout 0, .exit 0]).procs 1).asked = true := by decide

/-- The daemon of `C136_daemon`, whose starter ends. -/
example : 0 < (FamSt.init.run [.start 0 false]).next ∧ ((FamSt.init.run [.start 0 false]).procs 0).pc = .running ∧
    (∀ e ∈ [FamEv.finish 0, .stop 0, .serve 1, .exit 1, .ended 0, .exit 0], e ≠ .ask (FamSt.init.run [.start 0 false]).next ∧
      e ≠ .finish (FamSt.init.run [.start 0 false]).next ∧ e ≠ .hang (FamSt.init.run [.start 0 false]).next ∧
      e ≠ .kill (FamSt.init.run [.start 0 false]).next) := by decide

end Verif
