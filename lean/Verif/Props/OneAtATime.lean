import Verif.Proof.OneAtATime
import Verif.Model.ServerTimer
import Verif.Spec.Timer
import Verif.Props.Timer
import Verif.Props.Requests
import Verif.Props.SystemExample
/-!
# C110: one request at a time

A client that waits for each answer never has two requests running; so the callbacks of a server's timer do not overlap.
/repo/teleprox/client.py:227-319, /repo/teleprox/server.py:484-498, /repo/teleprox/timer.py:60-89.
-/
namespace Verif

/-- A request was answered at some time of the run `es`. -/
def WasAnswered (K : Codec) (S : Sys) (n : Bytes) (es : List SEv) (k : Int) : Prop :=
  0 ≤ k ∧ ∃ a b f, es = a ++ b ∧ ((S.run K a).cli n).fut k.toNat = some f ∧ f.answered

/-- Whenever client `n` makes a request, all it asked before has been answered. -/
def Patient (K : Codec) (S : Sys) (n : Bytes) (es : List SEv) : Prop :=
  ∀ a E t act o rt sy b, es = a ++ .request n E t act o rt sy :: b → ∀ q ∈ S.asked K a n, WasAnswered K S n a q.id

/-- The requests of client `n` that are being carried out. -/
def runningOf (n : Bytes) (s : Srv) : Nat := s.stack.countP fun f => decide (f.caller = n)

theorem WasAnswered.mono {K S n a k} (h : WasAnswered K S n a k) (b) : WasAnswered K S n (a ++ b) k := by
  obtain ⟨h0, x, y, f, rfl, h1, h2⟩ := h
  exact ⟨h0, x, y ++ b, f, by simp, h1, h2⟩

section
variable {K : Codec} {L : Lib} {idOf : Obj → Nat} {addr : String} {tys : List Ty} {self : Val} {sers : Bytes → Ser}

/-- **C110** In every run, a client that waits for the answer to each request before the next has at most one request running in the server, at any time: however deep the server's
requests are nested, and whatever other clients do. -/
theorem C110_one_at_a_time {es : List SEv} (W : World K L idOf (Srv.init addr tys self) sers es) {n : Bytes}
    (hp : Patient K (Sys.init (Srv.init addr tys self) sers) n es) :
    runningOf n ((Sys.init (Srv.init addr tys self) sers).run K es).srv ≤ 1 := by
  -- a request that was answered does not run
  have hA : ∀ k : Int, WasAnswered K (Sys.init (Srv.init addr tys self) sers) n es k → ((Sys.init (Srv.init addr tys self) sers).run K es).srv.countOpen n k = 0 := by
    rintro k ⟨hk, a, b, f, rfl, hf, ha⟩
    have := answered_not_open W hf ha
    rwa [Int.toNat_of_nonneg hk] at this
  -- all but the last were answered
  have hB : ∀ x q y, (Sys.init (Srv.init addr tys self) sers).asked K es n = x ++ q :: y → ∀ q' ∈ x, WasAnswered K (Sys.init (Srv.init addr tys self) sers) n es q'.id := by
    intro x q y h q' hq'
    obtain ⟨a, E, t, act, o, rt, sy, b, h1, h2⟩ := asked_at h
    have := hp a E t act o rt sy b h1 q' (by rw [h2]; exact hq')
    rw [h1]; exact this.mono _
  have hO := open_asked W n
  have hframe : ∀ f ∈ ((Sys.init (Srv.init addr tys self) sers).run K es).srv.stack, f.caller = n →
      1 ≤ ((Sys.init (Srv.init addr tys self) sers).run K es).srv.countOpen n f.reqId := by
    intro f hf hc
    exact List.countP_pos_iff.2 ⟨f, hf, by simp [hc]⟩
  generalize hl : (Sys.init (Srv.init addr tys self) sers).asked K es n = l at hB hO
  rcases List.eq_nil_or_concat l with rfl | ⟨x, q, rfl⟩
  · rw [runningOf, List.countP_eq_zero.2]
    · omega
    · intro f hf hc
      have h1 := hframe f hf (by simpa using hc)
      have h2 := hO f.reqId
      simp only [List.countP_nil] at h2
      omega
  · simp only [List.concat_eq_append] at hB hO
    have hx := hB x q [] rfl
    have hid : ∀ f ∈ ((Sys.init (Srv.init addr tys self) sers).run K es).srv.stack, f.caller = n → f.reqId = q.id := by
      intro f hf hc
      have h1 := hframe f hf hc
      have h2 := hO f.reqId
      have h3 := List.countP_pos_iff.1 (Nat.lt_of_lt_of_le h1 h2)
      obtain ⟨q', hq', he⟩ := h3
      simp only [decide_eq_true_eq] at he
      rcases List.mem_append.1 hq' with h | h
      · have := hA _ (hx q' h)
        rw [he] at this; omega
      · simp only [List.mem_singleton] at h; subst h; exact he.symm
    have h1 : runningOf n ((Sys.init (Srv.init addr tys self) sers).run K es).srv ≤ ((Sys.init (Srv.init addr tys self) sers).run K es).srv.countOpen n q.id := by
      refine List.countP_mono_left fun f hf hc => ?_
      have hc : f.caller = n := by simpa using hc
      simp [hc, hid f hf hc]
    by_cases h0 : ((Sys.init (Srv.init addr tys self) sers).run K es).srv.countOpen n q.id = 0
    · omega
    · have h2 := hO q.id
      rw [List.countP_append] at h2
      have h3 : x.countP (fun q' => decide (q'.id = q.id)) = 0 := by
        rw [List.countP_eq_zero]
        intro q' hq' he
        simp only [decide_eq_true_eq] at he
        have := hA _ (hx q' hq')
        rw [he] at this
        exact h0 this
      simp at h2
      omega

/-! ## Timers -/

/-- What happened to the server and the clients in a run. -/
def TSys.sysHist (K : Codec) (C : TimerCall) (s : TSys) : List TEv → List SEv
  | [] => []
  | e :: es => s.sysEvs C e ++ (s.step K C e).sysHist K C es

/-- What happened to the timer in a run. -/
def TSys.timerHist (K : Codec) (C : TimerCall) (s : TSys) : List TEv → List TimerEv
  | [] => []
  | e :: es => s.timerEvs K C e ++ (s.step K C e).timerHist K C es

theorem trun_sys (C : TimerCall) : ∀ (es : List TEv) (s : TSys), (s.run K C es).sys = s.sys.run K (s.sysHist K C es)
  | [], _ => rfl
  | e :: es, s => by
    simp only [TSys.run, TSys.sysHist]
    rw [trun_sys C es, sys_run_append]
    rfl

theorem trun_tm (C : TimerCall) : ∀ (es : List TEv) (s : TSys), (s.run K C es).tm = (s.tm.run (s.timerHist K C es)).1
  | [], _ => rfl
  | e :: es, s => by
    simp only [TSys.run, TSys.timerHist]
    rw [trun_tm C es, timer_run_append]
    rfl

theorem trun_snoc (C : TimerCall) (e : TEv) : ∀ (es : List TEv) (s : TSys), s.run K C (es ++ [e]) = (s.run K C es).step K C e ∧
    s.sysHist K C (es ++ [e]) = s.sysHist K C es ++ (s.run K C es).sysEvs C e ∧ s.timerHist K C (es ++ [e]) = s.timerHist K C es ++ (s.run K C es).timerEvs K C e
  | [], s => by simp [TSys.run, TSys.sysHist, TSys.timerHist]
  | x :: es, s => by
    obtain ⟨h1, h2, h3⟩ := trun_snoc C e es (s.step K C x)
    simp only [List.cons_append, TSys.run, TSys.sysHist, TSys.timerHist]
    exact ⟨h1, by rw [h2, List.append_assoc], by rw [h3, List.append_assoc]⟩

theorem patient_snoc {S : Sys} {n : Bytes} {es : List SEv} {e : SEv} (h : Patient K S n es)
    (he : e.notBy n = true ∨ ∀ q ∈ S.asked K es n, WasAnswered K S n es q.id) : Patient K S n (es ++ [e]) := by
  intro a E t act o rt sy b hs q hq
  rcases List.eq_nil_or_concat b with rfl | ⟨b', y, rfl⟩
  · obtain ⟨rfl, h2⟩ := List.append_inj' hs rfl
    simp only [List.cons.injEq, and_true] at h2
    subst h2
    rcases he with he | he
    · simp [SEv.notBy] at he
    · exact he q hq
  · rw [List.concat_eq_append, ← List.cons_append, ← List.append_assoc] at hs
    obtain ⟨rfl, _⟩ := List.append_inj' hs rfl
    exact h a E t act o rt sy b' rfl q hq

/-- events that are not the client's requests ask nothing -/
theorem asked_other {S : Sys} {n : Bytes} {es : List SEv} {e : SEv} (he : e.notBy n = true) : S.asked K (es ++ [e]) n = S.asked K es n := by
  rw [Sys.asked, cliHist_append, asked_append]
  have : Cli.asked K ((S.cli n).run K (S.cliHist K n es)).1 ((S.run K es).cliHist K n [e]) = [] := by
    simp only [Sys.cliHist, List.append_nil]
    cases e with
    | request m E t a o rt sy =>
      simp only [SEv.notBy, decide_eq_true_eq] at he
      simp [Sys.cliEvs, he, Cli.asked]
    | deliver m P junk =>
      simp only [Sys.cliEvs]
      repeat' split
      all_goals simp [Cli.asked]
    | forget m k => simp only [Sys.cliEvs]; split <;> simp [Cli.asked]
    | closeClient m => simp only [Sys.cliEvs]; split <;> simp [Cli.asked]
    | _ => simp [Sys.cliEvs, Cli.asked]
  rw [this, List.append_nil]
  rfl

/-- a request asks one thing at most -/
theorem asked_request {S : Sys} {n : Bytes} {es : List SEv} (E t act o rt sy) :
    S.asked K (es ++ [.request n E t act o rt sy]) n = S.asked K es n ++
      (match (((S.run K es).cli n).send K E t act o rt sy).2.2.1 with
        | some _ => [⟨if sy = "off" then -1 else ((S.run K es).cli n).nextId, act, rt, ((S.run K es).cli n).ser, o.bind fun v => (((S.run K es).cli n).ser.dumps E t v).2.toOption⟩]
        | none => []) := by
  rw [Sys.asked, cliHist_append, asked_append, ← sys_run_cli]
  simp only [Sys.cliHist, Sys.cliEvs, if_true, List.append_nil, Cli.asked]
  rfl

/-- what a synchronous request gives -/
theorem send_sync (c : Cli) (E t act o rt) : (∃ e, (c.send K E t act o rt "sync").2.2.2 = .error e) ∨
    (c.send K E t act o rt "sync").2.2.2 = .ok (.wait c.nextId) := by
  unfold Cli.send
  have h1 : ("sync" = "off") = False := by simp
  have h2 : ("sync" = "async") = False := by simp
  simp only [h1, h2, if_false, if_true]
  split
  · exact .inl ⟨_, rfl⟩
  · split
    · exact .inl ⟨_, rfl⟩
    · split
      · exact .inl ⟨_, rfl⟩
      · exact .inr rfl

/-- what holds all the time -/
structure TInv (K : Codec) (S : Sys) (C : TimerCall) (es : List SEv) (os : List TimerOut) (s : TSys) : Prop where
  sys : s.sys = S.run K es
  patient : Patient K S C.name es
  waiting : ∀ k, s.call = some k → s.tm.pc = .inside ∧ ∀ q ∈ S.asked K es C.name, WasAnswered K S C.name es q.id ∨ q.id = k
  idle : s.call = none → s.tm.pc ≠ .ending → s.tm.pc ≠ .dead → s.tm.pc ≠ .inside ∧ ∀ q ∈ S.asked K es C.name, WasAnswered K S C.name es q.id
  count : (S.asked K es C.name).length ≤ callsOf os

/-- a step of the timer outside of calls -/
theorem timer_apart {s : TimerSt} {e : TimerEv} (h : s.apart e = true) : (s.pc = .inside → (s.step e).1.pc = .inside) ∧
    ((s.step e).1.pc ≠ .ending → (s.step e).1.pc ≠ .dead → s.pc ≠ .ending ∧ s.pc ≠ .dead ∧ (s.pc ≠ .inside → (s.step e).1.pc ≠ .inside)) := by
  unfold TimerSt.apart at h
  cases e with
  | go =>
    cases hp : s.pc <;> rw [hp] at h <;> simp only [TimerSt.step, TimerSt.go, hp] <;> (repeat' split) <;> simp_all
  | check => simp only [TimerSt.step]; (repeat' split) <;> simp_all
  | launch => simp only [TimerSt.step]; (repeat' split) <;> simp_all
  | fail => cases hp : s.pc <;> rw [hp] at h <;> simp [TimerSt.step, hp] at h ⊢
  | _ => simp only [TimerSt.step]; simp_all

theorem TInv.next {S : Sys} {C : TimerCall} (hC : C.sync = "sync") {es : List SEv} {os : List TimerOut} {s : TSys} (h : TInv K S C es os s) (e : TEv) :
    TInv K S C (es ++ s.sysEvs C e) (os ++ (s.tm.run (s.timerEvs K C e)).2) (s.step K C e) := by
  have hsys : (s.step K C e).sys = S.run K (es ++ s.sysEvs C e) := by rw [sys_run_append, ← h.sys]; rfl
  have hcount : callsOf os ≤ callsOf (os ++ (s.tm.run (s.timerEvs K C e)).2) := by rw [callsOf_append]; omega
  cases e with
  | sys e =>
    simp only [TSys.sysEvs] at hsys ⊢
    by_cases he : e.notBy C.name = true
    · rw [if_pos he] at hsys ⊢
      have ha := asked_other (K := K) (S := S) (es := es) he
      refine ⟨hsys, patient_snoc h.patient (.inl he), ?_, ?_, by rw [ha]; exact Nat.le_trans h.count hcount⟩
      · intro k hk
        obtain ⟨h1, h2⟩ := h.waiting k hk
        exact ⟨h1, fun q hq => (h2 q (by rwa [ha] at hq)).imp (·.mono _) id⟩
      · intro hk h1 h2
        obtain ⟨h3, h4⟩ := h.idle hk h1 h2
        exact ⟨h3, fun q hq => (h4 q (by rwa [ha] at hq)).mono _⟩
    · rw [if_neg he, List.append_nil] at hsys ⊢
      exact ⟨hsys, h.patient, h.waiting, h.idle, Nat.le_trans h.count hcount⟩
  | timer e =>
    simp only [TSys.sysEvs, List.append_nil] at hsys ⊢
    by_cases he : s.tm.apart e = true
    · have htm : (s.step K C (.timer e)).tm = (s.tm.step e).1 := by simp [TSys.step, TSys.timerEvs, he, TimerSt.run]
      obtain ⟨h1, h2⟩ := timer_apart he
      refine ⟨hsys, h.patient, ?_, ?_, Nat.le_trans h.count hcount⟩
      · intro k hk
        obtain ⟨h3, h4⟩ := h.waiting k hk
        exact ⟨by rw [htm]; exact h1 h3, h4⟩
      · intro hk h3 h4
        rw [htm] at h3 h4 ⊢
        obtain ⟨h5, h6, h7⟩ := h2 h3 h4
        obtain ⟨h8, h9⟩ := h.idle hk h5 h6
        exact ⟨h7 h8, h9⟩
    · have htm : (s.step K C (.timer e)).tm = s.tm := by simp [TSys.step, TSys.timerEvs, he, TimerSt.run]
      exact ⟨hsys, h.patient, by rw [htm]; exact h.waiting, by rw [htm]; exact h.idle, Nat.le_trans h.count hcount⟩
  | call E t =>
    by_cases hp : s.tm.pc = .turn
    · have hnone : s.call = none := by
        cases hc : s.call with
        | none => rfl
        | some k => have := (h.waiting k hc).1; rw [hp] at this; simp at this
      obtain ⟨-, hall⟩ := h.idle hnone (by rw [hp]; simp) (by rw [hp]; simp)
      have hasked := asked_request (K := K) (S := S) (n := C.name) (es := es) E t C.action C.opts C.returnType C.sync
      rw [← h.sys] at hasked
      simp only [TSys.sysEvs, hp, if_true] at hsys ⊢
      have hlen : (S.asked K (es ++ [.request C.name E t C.action C.opts C.returnType C.sync]) C.name).length ≤ (S.asked K es C.name).length + 1 := by
        rw [hasked, List.length_append]; split <;> simp
      have hcalls : callsOf os + 1 ≤ callsOf (os ++ (s.tm.run (s.timerEvs K C (.call E t))).2) := by
        rw [callsOf_append]
        have : 1 ≤ callsOf (s.tm.run (s.timerEvs K C (.call E t))).2 := by
          simp only [TSys.timerEvs, hp, if_true, TSys.begins]
          split <;> simp [TimerSt.run, TimerSt.step, TimerSt.go, hp, callsOf]
        omega
      refine ⟨hsys, patient_snoc h.patient (.inr hall), ?_, ?_, Nat.le_trans hlen (Nat.le_trans (by have := h.count; omega) hcalls)⟩
      · intro k hk
        simp only [TSys.step, TSys.callAfter, hp, if_true, TSys.timerEvs, TSys.begins, hC] at hk ⊢
        rcases send_sync (K := K) (s.sys.cli C.name) E t C.action C.opts C.returnType with ⟨x, hx⟩ | hx
        · rw [hx] at hk; simp at hk
        · rw [hx] at hk ⊢
          simp only [Option.some.injEq] at hk
          subst hk
          refine ⟨by simp [TimerSt.run, TimerSt.step, TimerSt.go, hp], fun q hq => ?_⟩
          rw [← hC, hasked] at hq
          rcases List.mem_append.1 hq with hq | hq
          · exact .inl ((hall q hq).mono _)
          · right
            split at hq
            · simp only [List.mem_singleton] at hq; subst hq
              simp [hC]
            · simp at hq
      · intro hk h1 h2
        exfalso
        simp only [TSys.step, TSys.callAfter, hp, if_true, TSys.timerEvs, TSys.begins, hC] at hk h1
        rcases send_sync (K := K) (s.sys.cli C.name) E t C.action C.opts C.returnType with ⟨x, hx⟩ | hx
        · rw [hx] at h1; simp [TimerSt.run, TimerSt.step, TimerSt.go, hp] at h1
        · rw [hx] at hk; simp at hk
    · have hst : s.step K C (.call E t) = s := by simp [TSys.step, TSys.sysEvs, TSys.timerEvs, TSys.callAfter, hp, TimerSt.run, Sys.run]
      rw [hst]
      simp only [TSys.sysEvs, TSys.timerEvs, hp, if_false, TimerSt.run, List.append_nil]
      exact h
  | back =>
    by_cases hp : s.tm.pc = .inside ∧ (s.ends C).isSome = true
    · obtain ⟨hp, he⟩ := hp
      simp only [TSys.sysEvs, List.append_nil] at hsys ⊢
      have hce : (s.step K C .back).call = none := by simp [TSys.step, TSys.callAfter, hp, he]
      refine ⟨hsys, h.patient, fun k hk => by rw [hce] at hk; simp at hk, fun _ h1 h2 => ?_, Nat.le_trans h.count hcount⟩
      have htm : (s.step K C .back).tm = (s.tm.run ((s.ends C).getD [])).1 := by simp [TSys.step, TSys.timerEvs, hp]
      rw [htm] at h1 h2 ⊢
      unfold TSys.ends at h1 h2 he ⊢
      cases hc : s.call with
      | none => rw [hc] at he; simp at he
      | some k =>
        rw [hc] at h1 h2 he
        simp only at h1 h2 he ⊢
        cases hf : (s.sys.cli C.name).futs.get? k with
        | none => rw [hf] at he; simp at he
        | some f =>
          rw [hf] at h1 h2 he
          cases f with
          | pending => simp at he
          | value v =>
            simp only [Option.getD_some] at h1 h2 ⊢
            refine ⟨by simp [TimerSt.run, TimerSt.step, TimerSt.go, hp], fun q hq => ?_⟩
            rcases (h.waiting k hc).2 q hq with h3 | h3
            · exact h3
            · rw [h3]
              refine ⟨by omega, es, [], .value v, by simp, ?_, trivial⟩
              rw [← h.sys]
              exact hf
          | _ => simp [TimerSt.run, TimerSt.step, hp] at h1
    · have hst : s.step K C .back = s ∧ s.timerEvs K C .back = [] := by
        have h2 : s.timerEvs K C .back = [] := by
          simp only [TSys.timerEvs]
          split
          · rename_i hi
            have : s.ends C = none := by cases hh : s.ends C with | none => rfl | some x => exact absurd ⟨hi, by simp [hh]⟩ hp
            simp [this]
          · rfl
        refine ⟨?_, h2⟩
        simp only [TSys.step, h2, TSys.sysEvs, TSys.callAfter, if_neg hp, TimerSt.run, Sys.run]
      rw [hst.1, hst.2]
      simp only [TSys.sysEvs, TimerSt.run, List.append_nil]
      exact h
  | giveUp =>
    simp only [TSys.sysEvs, List.append_nil] at hsys ⊢
    by_cases hp : s.tm.pc = .inside
    · cases hc : s.call with
      | none =>
        have := (h.idle hc (by rw [hp]; simp) (by rw [hp]; simp)).1
        exact absurd hp this
      | some k =>
        refine ⟨hsys, h.patient, fun k hk => ?_, fun _ h1 _ => ?_, Nat.le_trans h.count hcount⟩
        · simp [TSys.step, TSys.callAfter, hp] at hk
        · simp [TSys.step, TSys.timerEvs, hp, hc, TimerSt.run, TimerSt.step] at h1
    · have hst : s.step K C .giveUp = s := by simp [TSys.step, TSys.sysEvs, TSys.timerEvs, TSys.callAfter, hp, TimerSt.run, Sys.run]
      rw [hst]
      simp only [TSys.timerEvs, hp, false_and, if_false, TimerSt.run, List.append_nil]
      exact h

theorem tinv_run {C : TimerCall} (hC : C.sync = "sync") (iv : Int) (lim : Option Int) (now : Int) (es : List TEv) :
    let s0 : TSys := ⟨Sys.init (Srv.init addr tys self) sers, TimerSt.init iv lim now, none⟩
    TInv K s0.sys C (s0.sysHist K C es) (s0.tm.run (s0.timerHist K C es)).2 (s0.run K C es) := by
  intro s0
  induction es using snoc_induction with
  | h0 =>
    refine ⟨rfl, ?_, fun k hk => by simp [s0, TSys.run] at hk, fun _ _ _ => ⟨by simp [s0, TSys.run, TimerSt.init], ?_⟩, ?_⟩
    · intro a E t act o rt sy b h; simp [TSys.sysHist] at h
    · intro q hq; simp [TSys.sysHist, Sys.asked, Sys.cliHist, Cli.asked] at hq
    · simp [TSys.sysHist, Sys.asked, Sys.cliHist, Cli.asked]
  | hs es e ih =>
    obtain ⟨h1, h2, h3⟩ := trun_snoc (K := K) C e es s0
    rw [h1, h2, h3, timer_run_append]
    rw [← trun_tm]
    exact ih.next hC e

/-- **C110** (timers) In every run of a server, its clients and a timer whose callback is a proxy (in the default sync mode): at any time at most one call of the callback is running in the
server, even if the server is nested, the timer is stopped and started, or calls time out; and the server began no more calls than the timer made. -/
theorem C110_timer {C : TimerCall} (hC : C.sync = "sync") (iv : Int) (lim : Option Int) (now : Int) (es : List TEv) (s0 : TSys)
    (h0 : s0 = ⟨Sys.init (Srv.init addr tys self) sers, TimerSt.init iv lim now, none⟩) (W : World K L idOf (Srv.init addr tys self) sers (s0.sysHist K C es)) :
    runningOf C.name (s0.run K C es).sys.srv ≤ 1 ∧
    (started C.name (s0.sys.outs K (s0.sysHist K C es))).length ≤ callsOf (s0.tm.run (s0.timerHist K C es)).2 := by
  subst h0
  have h := tinv_run (K := K) (addr := addr) (tys := tys) (self := self) (sers := sers) hC iv lim now es
  refine ⟨?_, ?_⟩
  · rw [trun_sys]
    exact C110_one_at_a_time W h.patient
  · have h1 := (C35_in_order (K := K) (addr := addr) (tys := tys) (self := self) (sers := sers) W.fits C.name).length_le
    rw [List.length_map] at h1
    exact Nat.le_trans h1 h.count

/-- **C110** (limits) A timer with a limit, started once, makes the server carry out its callback at most so many times. -/
theorem C110_limit {C : TimerCall} (hC : C.sync = "sync") {iv n now : Int} (hn : 1 ≤ n) (es : List TEv) (s0 : TSys)
    (h0 : s0 = ⟨Sys.init (Srv.init addr tys self) sers, TimerSt.init iv (some n) now, none⟩) (W : World K L idOf (Srv.init addr tys self) sers (s0.sysHist K C es))
    (h1 : StartedOnce (s0.timerHist K C es)) :
    ((started C.name (s0.sys.outs K (s0.sysHist K C es))).length : Int) ≤ n := by
  have h2 := (C110_timer hC iv (some n) now es s0 h0 W).2
  have h3 : (callsOf (s0.tm.run (s0.timerHist K C es)).2 : Int) ≤ n := by
    have : s0.tm = TimerSt.init iv (some n) now := by rw [h0]
    rw [this]
    exact C50_at_most h1 hn
  omega
end

/-- **C110** (`start_timer`) A callback that is a proxy is used as it is. For any other callback the timer gets a proxy to this very object, which the server holds from then on. The timer is
started unless `start` is false. -/
theorem C110_start {H : Heap} {s s' : Srv} (hl : LiveTable H s.refs) {callback cb : Val} {interval : Except Exc Int} {limit : Option Int} {start : Option Bool} {other : List String}
    {now : Int} {tm : TimerSt} {es : List TimerEv} (h : s.startTimer H callback interval limit start other now = (s', .ok (cb, tm, es))) :
    ((∃ p, callback = .proxy p ∧ cb = .proxy p ∧ s' = s) ∨
      ((∀ p, callback ≠ .proxy p) ∧ ∃ p, cb = .proxy p ∧ p.addr = s.addr ∧ p.attrs = [] ∧ s'.refs.lookup p.oid = .ok (H.ident callback) ∧ s'.refs.Held p.oid p.rid)) ∧
    other = [] ∧ interval = .ok tm.interval ∧ tm.limit = limit ∧ ((tm.run es).1.pc = .copying ↔ start ≠ some false) := by
  have hrest : s' = (s.timerCallback H callback).1 ∧ cb = (s.timerCallback H callback).2 ∧ other = [] ∧ interval = .ok tm.interval ∧ tm.limit = limit ∧
      ((tm.run es).1.pc = .copying ↔ start ≠ some false) := by
    unfold Srv.startTimer at h
    by_cases ho : other = []
    · simp only [ho, ne_eq, not_true, if_false] at h
      cases interval with
      | error e => simp at h
      | ok i =>
        simp only [Prod.mk.injEq, Except.ok.injEq] at h
        obtain ⟨rfl, rfl, rfl, rfl⟩ := h
        refine ⟨rfl, rfl, ho, rfl, rfl, ?_⟩
        cases start with
        | none => simp [TimerSt.run, TimerSt.step, TimerSt.init, TimerPc.alive]
        | some b => cases b <;> simp [TimerSt.run, TimerSt.step, TimerSt.init, TimerPc.alive]
    · simp [ho] at h
  obtain ⟨rfl, rfl, h3⟩ := hrest
  refine ⟨?_, h3⟩
  by_cases hp : ∃ p, callback = .proxy p
  · obtain ⟨p, rfl⟩ := hp
    exact .inl ⟨p, rfl, rfl, rfl⟩
  · have hm : s.timerCallback H callback = s.proxyTo H callback := by
      cases callback <;> first | rfl | exact absurd ⟨_, rfl⟩ hp
    obtain ⟨t, p, rs, h1, h2, h3, h4, h5, h6, h7⟩ := proxyTo_spec hl callback
    rw [hm, h1]
    exact .inr ⟨fun p hc => hp ⟨p, hc⟩, p, rfl, h2, h3, by simp [Refs.lookup, h5], _, rs, h5, h6⟩

/-- **C110** (`start_timer`, refusal) With a keyword that is not one of a timer, or an interval that is not a number, nothing is started; but the server holds the callback from then on. -/
theorem C110_refused {H : Heap} {s : Srv} (hl : LiveTable H s.refs) {callback : Val} (hc : ∀ p, callback ≠ .proxy p) {interval : Except Exc Int} {limit : Option Int} {start : Option Bool}
    {other : List String} {now : Int} (h : other ≠ [] ∨ ∃ e, interval = .error e) :
    ∃ s' e oid rid, s.startTimer H callback interval limit start other now = (s', .error e) ∧ s'.refs.lookup oid = .ok (H.ident callback) ∧ s'.refs.Held oid rid := by
  have hm : s.timerCallback H callback = s.proxyTo H callback := by
    cases callback <;> first | rfl | exact absurd rfl (hc _)
  obtain ⟨t, p, rs, h1, h2, h3, h4, h5, h6, h7⟩ := proxyTo_spec hl callback
  by_cases ho : other = []
  · obtain ⟨e, rfl⟩ := h.resolve_left (fun g => g ho)
    refine ⟨(s.timerCallback H callback).1, e, p.oid, p.rid, by simp [Srv.startTimer, ho], ?_, ?_⟩ <;> rw [hm, h1]
    · simp [Refs.lookup, h5]
    · exact ⟨_, rs, h5, h6⟩
  · refine ⟨(s.timerCallback H callback).1, .typeError, p.oid, p.rid, by simp [Srv.startTimer, ho], ?_, ?_⟩ <;> rw [hm, h1]
    · simp [Refs.lookup, h5]
    · exact ⟨_, rs, h5, h6⟩

theorem mem_sysHist {K : Codec} {C : TimerCall} {x : SEv} : ∀ {es : List TEv} {s : TSys}, x ∈ s.sysHist K C es →
    TEv.sys x ∈ es ∨ ∃ E t, x = .request C.name E t C.action C.opts C.returnType C.sync
  | [], _, h => by simp [TSys.sysHist] at h
  | e :: es, s, h => by
    rw [TSys.sysHist, List.mem_append] at h
    rcases h with h | h
    · cases e with
      | sys y =>
        simp only [TSys.sysEvs] at h
        split at h
        · exact .inl (by rw [List.mem_singleton.1 h]; exact List.mem_cons_self)
        · simp at h
      | call E t =>
        simp only [TSys.sysEvs] at h
        split at h
        · exact .inr ⟨E, t, List.mem_singleton.1 h⟩
        · simp at h
      | _ => simp [TSys.sysEvs] at h
    · rcases mem_sysHist h with h | h
      · exact .inl (List.mem_cons_of_mem _ h)
      · exact .inr h

namespace Ex

/-- The calls of a timer whose callback is the object 5. -/
def tcall (sync : String) : TimerCall := ⟨nA, "call_obj", (callObjReq (.int 5) (.list []) (.dict [])).2, "auto", sync⟩
def tsys : TSys := ⟨sys, TimerSt.init 10 none 0, none⟩

/-- The timer calls, the server carries the call out while B asks for something, the call returns, the timer calls again. -/
def tevs : List TEv :=
  [.timer .start, .timer .check, .timer .launch, .timer .go, .timer .go, .timer .go, .call csend Refs.init, .sys (.serve nA heap2),
   .sys (req nB pingReq "auto" "sync"), .sys (.serve nB heap2), .sys (rd nB), .sys (.ret heap2 (.ok (.int 3))), .sys (rd nA), .back,
   .timer .go, .timer .go, .timer .go, .timer (.tick 10), .timer .go, .timer .go, .call csend Refs.init, .sys (.serve nA heap2)]

/-- C110: the circumstances can be met; the second call of the timer is running. -/
example : World codec2 lib heap2.idOf srv sers2 (tsys.sysHist codec2 (tcall "sync") tevs) ∧
    runningOf nA (tsys.run codec2 (tcall "sync") tevs).sys.srv = 1 ∧ callsOf (tsys.tm.run (tsys.timerHist codec2 (tcall "sync") tevs)).2 = 2 := by
  refine ⟨world2 ?_ ?_, by decide +kernel, by decide +kernel⟩
  · intro e he H hH
    rcases mem_sysHist he with h | ⟨E, t, rfl⟩
    · simp only [tevs, req, rd, List.mem_cons, List.not_mem_nil, reduceCtorEq, false_or, or_false, TEv.sys.injEq] at h
      rcases h with rfl | rfl | rfl | rfl | rfl | rfl | rfl <;> simp_all [SEv.heap?]
    · simp [SEv.heap?] at hH
  · intro n P j he
    rcases mem_sysHist he with h | ⟨E, t, h⟩
    · simp only [tevs, req, rd, List.mem_cons, List.not_mem_nil, reduceCtorEq, false_or, or_false, TEv.sys.injEq, SEv.deliver.injEq] at h
      rcases h with h | h <;> exact h.2.1
    · simp at h

/-- C110: with a callback in mode async, calls do overlap: the timer calls again while the first call is waiting for something in the server. -/
theorem C110_async : runningOf nA (tsys.run codec2 (tcall "async") [.timer .start, .timer .check, .timer .launch, .timer .go, .timer .go, .timer .go, .call csend Refs.init, .sys (.serve nA heap2),
   .timer .go, .timer .go, .timer .go, .timer (.tick 10), .timer .go, .timer .go, .call csend Refs.init, .sys (.serve nA heap2)]).sys.srv = 2 := by decide +kernel

/-- C110: `start_timer` with an object, and with a keyword no timer has. -/
example : ((srv.startTimer heap2 (.obj 6 []) (.ok 10) none none [] 0).2.toOption.map fun x => match x.1 with
    | .proxy p => p.addr == srv.addr
    | _ => false) = some true := by decide +kernel
example : (srv.startTimer heap2 (.obj 6 []) (.ok 10) none none ["singleshot"] 0).2.toOption.isNone = true ∧ srv.refs.refs.length = 0 ∧
    (srv.startTimer heap2 (.obj 6 []) (.ok 10) none none ["singleshot"] 0).1.refs.refs.length = 1 := by decide +kernel

end Ex

namespace Ex

/-! ## The theorems on these cases -/

theorem tevs_world (lim : Option Int) (hlim : lim = none ∨ lim = some 2) : World codec2 lib heap2.idOf srv sers2 (TSys.sysHist codec2 (tcall "sync") ⟨sys, TimerSt.init 10 lim 0, none⟩ tevs) := by
  refine world2 ?_ ?_ (h3 := by rcases hlim with rfl | rfl <;> decide +kernel)
  · intro e he H hH
    rcases mem_sysHist he with h | ⟨E, t, rfl⟩
    · simp only [tevs, req, rd, List.mem_cons, List.not_mem_nil, reduceCtorEq, false_or, or_false, TEv.sys.injEq] at h
      rcases h with rfl | rfl | rfl | rfl | rfl | rfl | rfl <;> simp_all [SEv.heap?]
    · simp [SEv.heap?] at hH
  · intro n P j he
    rcases mem_sysHist he with h | ⟨E, t, h⟩
    · simp only [tevs, req, rd, List.mem_cons, List.not_mem_nil, reduceCtorEq, false_or, or_false, TEv.sys.injEq, SEv.deliver.injEq] at h
      rcases h with h | h <;> exact h.2.1
    · simp at h
example := C110_timer (C := tcall "sync") rfl 10 none 0 tevs tsys rfl (tevs_world none (.inl rfl))
example := C110_limit (C := tcall "sync") rfl (iv := 10) (n := 2) (now := 0) (by decide) tevs _ rfl (tevs_world (some 2) (.inr rfl)) (by unfold StartedOnce; decide +kernel)
/-- Client A asks twice, the second time when the first request has been answered. -/
theorem patient_evs : Patient codec2 sys nA evs := by
  intro a E t act o rt sy b h q hq
  let isReqA : Option SEv → Bool := fun e => match e with | some (.request n ..) => n == nA | _ => false
  have hi : isReqA (evs[a.length]?) = true := by rw [h]; simp [isReqA]
  have hl : a.length < 12 := by have := congrArg List.length h; simp [evs] at this; omega
  have ha : a = evs.take a.length := by rw [h]; simp
  have : ∀ i < 12, isReqA (evs[i]?) = true → i = 0 ∨ i = 9 := by decide +kernel
  rcases this _ hl hi with h0 | h9
  · rw [h0] at ha; subst ha; cases hq
  · rw [h9] at ha
    have hids : (sys.asked codec2 (evs.take 9) nA).map (·.id) = [0] := by decide +kernel
    have hq0 : q.id = 0 := by
      have := List.mem_map_of_mem (f := (·.id)) hq
      rw [ha, hids] at this
      simpa using this
    rw [hq0]
    have hp : isAnswered codec2 (evs.take 9) nA 0 = true := by decide +kernel
    obtain ⟨f, h1, h2⟩ := isAnswered_spec hp
    exact ⟨by decide, evs.take 9, [], f, by rw [ha]; simp, h1, h2⟩
example := C110_one_at_a_time world_evs (n := nA) patient_evs
example := fun e => C110_refused (H := heap2) (s := srv) (callback := .obj 6 []) (LiveTable.of_reach .init (liveHeap2 _)) (by simp) (interval := .ok 10) (limit := none) (start := none) (other := ["singleshot"]) (now := e) (.inl (by simp))
/-- `start_timer` with an object. -/
example : ∃ s' cb tm es, srv.startTimer heap2 (.obj 6 []) (.ok 10) (some 3) none [] 0 = (s', .ok (cb, tm, es)) ∧ s'.refs.refs.length = 1 ∧ tm.limit = some 3 := by
  have h : srv.startTimer heap2 (.obj 6 []) (.ok 10) (some 3) none [] 0 = _ := rfl
  exact ⟨_, _, _, _, h, by decide +kernel, (C110_start (LiveTable.of_reach .init (liveHeap2 _)) h).2.2.2.1⟩

end Ex

end Verif
