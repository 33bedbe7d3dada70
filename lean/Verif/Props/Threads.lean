import Verif.Proof.Threads
/-!
# C49: threads that call each other never deadlock
-/
namespace Verif

/-! ## Specification -/

/-- Reachable: from the beginning, by any history. -/
def CallSt.Reachable (C : CallCfg) (own : List Nat) (s : CallSt) : Prop := ∃ es, (CallSt.init own).run C es = some s

/-- The assumptions: every client is reentrant, code waits only for futures it made itself (each `sync='sync'` call does), and the threads with their own code are those with a lazy server and
those without a server. -/
structure CallCfg.Fair (C : CallCfg) (own : List Nat) : Prop where
  reentrant : ∀ a b, C.reentrant a b = true
  noLeak : C.leak = false
  lazy : ∀ t, C.kind t = .lazy → t ∈ own
  own : ∀ t ∈ own, C.kind t ≠ .loop

/-- Some call is unfinished: a request has not been read, or its code has not ended, or somebody waits. -/
def CallSt.Unfinished (s : CallSt) : Prop := s.requests ≠ [] ∨ (∃ f ∈ s.frames, f.serving ≠ none) ∨ ∃ f ∈ s.frames, f.waiting ≠ none

/-- A thread executes user code. -/
def CallSt.Executing (s : CallSt) (t : Nat) : Prop := ∃ f, s.top t = some f ∧ f.waiting = none

/-- What happens between a request and its reply, user code and timeouts apart. -/
def CallEv.machine : CallEv → Bool
  | .readReply _ | .serve _ _ | .resume _ => true
  | _ => false

/-- The thread that makes a step. -/
def CallEv.thread : CallEv → Nat
  | .send t _ _ | .await t _ | .readReply t | .serve t _ | .resume t | .giveUp t | .finish t => t

/-! ## Progress -/

theorem exists_latest {α : Type} (v : α → Nat) (l : List α) (h : l ≠ []) : ∃ a ∈ l, ∀ b ∈ l, v b ≤ v a := by
  induction l with
  | nil => exact absurd rfl h
  | cons a l ih =>
    by_cases hl : l = []
    · subst hl; exact ⟨a, List.mem_cons_self, fun b hb => by simp at hb; subst hb; exact Nat.le_refl _⟩
    · obtain ⟨m, hm, hmax⟩ := ih hl
      by_cases hle : v m ≤ v a
      · refine ⟨a, List.mem_cons_self, fun b hb => ?_⟩
        rcases List.mem_cons.mp hb with rfl | hb
        · exact Nat.le_refl _
        · exact Nat.le_trans (hmax b hb) hle
      · refine ⟨m, List.mem_cons_of_mem _ hm, fun b hb => ?_⟩
        rcases List.mem_cons.mp hb with rfl | hb
        · omega
        · exact hmax b hb

/-- A thread whose stack is not empty executes some frame. -/
theorem top_exists {s : CallSt} {g : CallFrame} (hg : g ∈ s.frames) : ∃ f, s.top g.thread = some f ∧ f ∈ s.frames ∧ f.thread = g.thread := by
  cases h : s.top g.thread with
  | none =>
    rw [CallSt.top, List.find?_eq_none] at h
    exact absurd (h g hg) (by simp)
  | some f => exact ⟨f, rfl, List.mem_of_find?_eq_some h, by simpa using List.find?_some h⟩

/-- With nothing to do for a thread that waits, its future is not done, there is no reply for its client, and no request for it. -/
theorem call_stuck {C : CallCfg} {s : CallSt} (hr : ∀ a b, C.reentrant a b = true) (t : Nat) (hno : ∀ e : CallEv, e.machine = true → e.thread = t → s.step C e = none)
    (f : CallFrame) (hf : s.top t = some f) (w : CallFut) (hw : f.waiting = some w) :
    s.isDone t w = false ∧ s.hasReply t w.dst = false ∧ (C.kind t ≠ .plain → ∀ r ∈ s.requests, r.dst ≠ t) := by
  have h1 : s.isDone t w = false := by
    have := hno (.resume t) rfl rfl
    simp only [CallSt.step, hf, hw] at this
    cases hd : s.isDone t w with
    | false => rfl
    | true => rw [hd] at this; simp at this
  have h2 : s.hasReply t w.dst = false := by
    have := hno (.readReply t) rfl rfl
    simp only [CallSt.step, hf, hw, h1, Bool.false_eq_true, if_false] at this
    cases hfind : s.replies.find? (fun m => m.1 = t ∧ m.2.1 = w.dst) with
    | some m => rw [hfind] at this; cases this
    | none =>
      rw [List.find?_eq_none] at hfind
      simpa [CallSt.hasReply] using hfind
  refine ⟨h1, h2, fun hk r hrm hrt => ?_⟩
  have := hno (.serve t r.src) rfl rfl
  have hm : s.mayServe C t = true := by
    simp [CallSt.mayServe, hf, hw, hk, hr, h1, h2]
  simp only [CallSt.step, hm, if_true] at this
  cases hfind : s.requests.find? (fun x => x.src = r.src ∧ x.dst = t) with
  | some m => rw [hfind] at this; cases this
  | none =>
    rw [List.find?_eq_none] at hfind
    exact hfind r hrm (by simp [hrt])

/-- **C49** In every reachable situation in which some call is unfinished, some thread executes user code, or can read a reply or a request or go on with a result: for every number
of threads, all calls (to any thread, also itself, in any depth), all interleavings, Qt servers and others. -/
theorem C49 (C : CallCfg) (own : List Nat) (hC : C.Fair own) (s : CallSt) (hs : s.Reachable C own) (hu : s.Unfinished) :
    (∃ t, s.Executing t) ∨ ∃ e : CallEv, e.machine = true ∧ s.step C e ≠ none := by
  apply Classical.byContradiction
  intro hno
  have hex : ∀ t f, s.top t = some f → ∃ w, f.waiting = some w := by
    intro t f hf
    cases hw : f.waiting with
    | some w => exact ⟨w, rfl⟩
    | none => exact absurd (.inl ⟨t, f, hf, hw⟩) hno
  have hstep : ∀ e : CallEv, e.machine = true → s.step C e = none := by
    intro e he
    cases h : s.step C e with
    | none => rfl
    | some s' => exact absurd (.inr ⟨e, he, by rw [h]; simp⟩) hno
  obtain ⟨es, hes⟩ := hs
  have hinv : s.Inv C := call_inv_run hC.noLeak es (call_inv_init C own hC.lazy) hes
  have hstuck := fun t f hf w hw => call_stuck hC.reentrant t (fun e he _ => hstep e he) f hf w hw
  -- no request is unread
  have hreq : s.requests = [] := by
    apply List.eq_nil_iff_forall_not_mem.mpr
    intro r hr
    have hk := (hinv.requests r hr).2
    cases ht : s.top r.dst with
    | some f =>
      obtain ⟨w, hw⟩ := hex _ _ ht
      exact (hstuck _ f ht w hw).2.2 hk r hr rfl
    | none =>
      cases hkind : C.kind r.dst with
      | plain => exact hk hkind
      | lazy =>
        obtain ⟨f, hf, h1, -⟩ := hinv.lazy _ hkind
        obtain ⟨g, hg, -⟩ := top_exists hf
        rw [h1, ht] at hg; cases hg
      | loop =>
        have := hstep (.serve r.dst r.src) rfl
        simp only [CallSt.step, CallSt.mayServe, ht, hkind, decide_true, if_true] at this
        cases hfind : s.requests.find? (fun x => x.src = r.src ∧ x.dst = r.dst) with
        | some m => rw [hfind] at this; cases this
        | none =>
          rw [List.find?_eq_none] at hfind
          exact hfind r hr (by simp)
  -- some frame exists
  have hne : s.frames ≠ [] := by
    rcases hu with hu | ⟨f, hf, -⟩ | ⟨f, hf, -⟩
    · exact absurd hreq hu
    · exact List.ne_nil_of_mem hf
    · exact List.ne_nil_of_mem hf
  -- the latest awaited future among the frames that threads execute
  let tops := s.frames.filter fun f => decide (s.top f.thread = some f)
  have htops : tops ≠ [] := by
    obtain ⟨g, hg⟩ := List.exists_mem_of_ne_nil _ hne
    obtain ⟨f, hf, hm, ht⟩ := top_exists hg
    exact List.ne_nil_of_mem (List.mem_filter.mpr ⟨hm, by rw [ht, hf]; simp⟩)
  obtain ⟨f, hf, hmax⟩ := exists_latest (fun f : CallFrame => match f.waiting with | some w => w.time | none => 0) tops htops
  obtain ⟨hfm, hft⟩ := List.mem_filter.mp hf
  have hft : s.top f.thread = some f := by simpa using hft
  obtain ⟨w, hw⟩ := hex _ _ hft
  obtain ⟨h1, h2, -⟩ := hstuck _ f hft w hw
  rcases hinv.located f hfm w (.inr hw) with hl | hl | ⟨g, hg, hgt, hgs⟩ | hl
  · rw [h1] at hl; cases hl
  · rw [hreq] at hl; cases hl
  · obtain ⟨f', hf', hfm', hft'⟩ := top_exists hg
    obtain ⟨w', hw'⟩ := hex _ _ hf'
    have hm' : f' ∈ tops := List.mem_filter.mpr ⟨hfm', by rw [hft', hf']; simp⟩
    have a1 := hmax f' hm'
    simp only [hw, hw'] at a1
    have a2 := hinv.later f' hfm' w' (.inr hw')
    have a3 := top_latest hinv.order hf' hg rfl
    have a4 := (hinv.before g hg _ hgs).1
    simp only at a4
    omega
  · rw [CallSt.hasReply, List.any_eq_false] at h2
    exact h2 _ hl (by simp)

/-! ## Termination -/

/-- What is left to do, at most. -/
def frameWork (f : CallFrame) : Nat := 2 + if f.waiting = none then 0 else 1
def CallSt.work (s : CallSt) : Nat := 4 * s.requests.length + (s.frames.map frameWork).sum + s.replies.length

theorem setTop_work {t : Nat} {g : CallFrame → CallFrame} {l : List CallFrame} {f : CallFrame} (h : l.find? (fun f => f.thread = t) = some f) :
    ((setTop t g l).map frameWork).sum + frameWork f = (l.map frameWork).sum + frameWork (g f) := by
  induction l with
  | nil => cases h
  | cons a l ih =>
    by_cases ha : a.thread = t
    · have : a = f := by simpa [List.find?, ha] using h
      subst this
      simp only [setTop, if_pos ha, List.map_cons, List.sum_cons]
      omega
    · have := ih (by simpa [List.find?, ha] using h)
      simp only [setTop, if_neg ha, List.map_cons, List.sum_cons]
      omega

theorem popTop_work {t : Nat} {l : List CallFrame} {f : CallFrame} (h : l.find? (fun f => f.thread = t) = some f) :
    ((popTop t l).map frameWork).sum + frameWork f = (l.map frameWork).sum := by
  induction l with
  | nil => cases h
  | cons a l ih =>
    by_cases ha : a.thread = t
    · have : a = f := by simpa [List.find?, ha] using h
      subst this
      simp only [popTop, if_pos ha, List.map_cons, List.sum_cons]
      omega
    · have := ih (by simpa [List.find?, ha] using h)
      simp only [popTop, if_neg ha, List.map_cons, List.sum_cons]
      omega

/-- What user code adds: a request, or a wait. -/
def CallEv.adds : CallEv → Nat
  | .send _ _ _ => 4
  | .await _ _ => 1
  | _ => 0

theorem call_work {C : CallCfg} {s s' : CallSt} (e : CallEv) (hs : s.step C e = some s') : s'.work + (if e.adds = 0 then 1 else 0) ≤ s.work + e.adds := by
  cases e with
  | send t dst wants =>
    simp only [CallSt.step] at hs
    split at hs
    · cases hs
    · rename_i f hf
      split at hs
      · split at hs
        · cases hs
          have := setTop_work (g := fun f => { f with futs := ⟨dst, s.ids t dst, s.time⟩ :: f.futs }) hf
          simp only [CallSt.work, CallEv.adds, List.length_append, List.length_cons, List.length_nil]
          have : frameWork { f with futs := ⟨dst, s.ids t dst, s.time⟩ :: f.futs } = frameWork f := rfl
          simp
          omega
        · cases hs
          simp only [CallSt.work, CallEv.adds, List.length_append, List.length_cons, List.length_nil]
          simp
          omega
      · cases hs
  | await t w =>
    simp only [CallSt.step] at hs
    split at hs
    · cases hs
    · rename_i f hf
      split at hs
      · rename_i hc
        cases hs
        have h1 := setTop_work (g := fun f => { f with waiting := some w }) hf
        simp only [CallSt.work, CallEv.adds]
        have h2 : frameWork { f with waiting := some w } = 3 := rfl
        have h3 : frameWork f = 2 := by simp [frameWork, hc.1]
        simp
        omega
      · cases hs
  | readReply t =>
    simp only [CallSt.step] at hs
    split at hs
    · cases hs
    · split at hs
      · cases hs
      · split at hs
        · cases hs
        · split at hs
          · cases hs
          · rename_i hm
            cases hs
            have := dropFirst_length hm
            simp only [CallSt.work, CallEv.adds, if_true]
            omega
  | serve t src =>
    simp only [CallSt.step] at hs
    split at hs
    · split at hs
      · cases hs
      · rename_i hm
        cases hs
        have := dropFirst_length hm
        simp only [CallSt.work, CallEv.adds, if_true, List.map_cons, List.sum_cons, frameWork]
        omega
    · cases hs
  | resume t =>
    simp only [CallSt.step] at hs
    split at hs
    · cases hs
    · rename_i f hf
      split at hs
      · cases hs
      · rename_i w hw
        split at hs
        · cases hs
          have h1 := setTop_work (g := fun f => { f with waiting := none }) hf
          have h2 : frameWork { f with waiting := none } = 2 := rfl
          have h3 : frameWork f = 3 := by simp [frameWork, hw]
          simp only [CallSt.work, CallEv.adds, if_true]
          omega
        · cases hs
  | giveUp t =>
    simp only [CallSt.step] at hs
    split at hs
    · cases hs
    · rename_i f hf
      split at hs
      · cases hs
      · rename_i w hw
        split at hs
        · cases hs
        · cases hs
          have h1 := setTop_work (g := fun f => { f with waiting := none }) hf
          have h2 : frameWork { f with waiting := none } = 2 := rfl
          have h3 : frameWork f = 3 := by simp [frameWork, hw]
          simp only [CallSt.work, CallEv.adds, if_true]
          omega
  | finish t =>
    simp only [CallSt.step] at hs
    split at hs
    · cases hs
    · rename_i f hf
      have h1 := popTop_work hf
      have h2 : 2 ≤ frameWork f := Nat.le_add_right _ _
      split at hs
      · split at hs
        · split at hs
          · cases hs
            simp only [CallSt.work, CallEv.adds, if_true, List.length_append, List.length_cons, List.length_nil]
            omega
          · cases hs
            simp only [CallSt.work, CallEv.adds, if_true]
            omega
        · split at hs
          · cases hs
            simp only [CallSt.work, CallEv.adds, if_true]
            omega
          · cases hs
      · cases hs

/-- **C49** (nothing goes on for ever by itself) In every history, the number of steps that are not sends or waits of user code is bounded by the number of those that are. -/
theorem C49_bounded (C : CallCfg) (es : List CallEv) : ∀ (s s' : CallSt), s.run C es = some s' →
    (es.filter fun e => e.adds = 0).length ≤ s.work + (es.map CallEv.adds).sum := by
  suffices h : ∀ (s s' : CallSt), s.run C es = some s' → s'.work + (es.filter fun e => e.adds = 0).length ≤ s.work + (es.map CallEv.adds).sum from
    fun s s' hs => by have := h s s' hs; omega
  induction es with
  | nil => intro s s' hs; cases hs; simp
  | cons e es ih =>
    intro s s' hs
    simp only [CallSt.run, Option.bind_eq_some_iff] at hs
    obtain ⟨s1, h1, h2⟩ := hs
    have a := call_work e h1
    have b := ih s1 s' h2
    by_cases he : e.adds = 0
    · simp only [List.filter_cons, he, decide_true, if_true, List.length_cons, List.map_cons, List.sum_cons] at a ⊢
      omega
    · simp only [List.filter_cons, he, decide_false, if_false, List.map_cons, List.sum_cons, Bool.false_eq_true] at a ⊢
      omega

/-- Code that serves no request is a thread's own. -/
theorem call_own_step {C : CallCfg} {own : List Nat} {s s' : CallSt} (h : ∀ f ∈ s.frames, f.serving = none → f.thread ∈ own) (e : CallEv) (hs : s.step C e = some s') :
    ∀ f ∈ s'.frames, f.serving = none → f.thread ∈ own := by
  have hset : ∀ t (g : CallFrame → CallFrame), (∀ f, (g f).thread = f.thread ∧ (g f).serving = f.serving) → ∀ f ∈ setTop t g s.frames, f.serving = none → f.thread ∈ own := by
    intro t g hg f hf hn
    rcases mem_setTop hf with hf | ⟨f', hf', rfl⟩
    · exact h f hf hn
    · rw [(hg f').1]; exact h f' (List.mem_of_find?_eq_some hf') (by rw [← (hg f').2]; exact hn)
  have hpop : ∀ t, ∀ f ∈ popTop t s.frames, f.serving = none → f.thread ∈ own := fun t f hf => h f (mem_popTop hf)
  cases e with
  | send t dst wants =>
    simp only [CallSt.step] at hs
    split at hs
    · cases hs
    · split at hs
      · split at hs
        · cases hs; exact hset _ _ fun _ => ⟨rfl, rfl⟩
        · cases hs; exact h
      · cases hs
  | await t w =>
    simp only [CallSt.step] at hs
    split at hs
    · cases hs
    · split at hs
      · cases hs; exact hset _ _ fun _ => ⟨rfl, rfl⟩
      · cases hs
  | readReply t =>
    simp only [CallSt.step] at hs
    split at hs
    · cases hs
    · split at hs
      · cases hs
      · split at hs
        · cases hs
        · split at hs
          · cases hs
          · cases hs; exact h
  | serve t src =>
    simp only [CallSt.step] at hs
    split at hs
    · split at hs
      · cases hs
      · cases hs
        intro f hf hn
        rcases List.mem_cons.mp hf with rfl | hf
        · cases hn
        · exact h f hf hn
    · cases hs
  | resume t =>
    simp only [CallSt.step] at hs
    split at hs
    · cases hs
    · split at hs
      · cases hs
      · split at hs
        · cases hs; exact hset _ _ fun _ => ⟨rfl, rfl⟩
        · cases hs
  | giveUp t =>
    simp only [CallSt.step] at hs
    split at hs
    · cases hs
    · split at hs
      · cases hs
      · split at hs
        · cases hs
        · cases hs; exact hset _ _ fun _ => ⟨rfl, rfl⟩
  | finish t =>
    simp only [CallSt.step] at hs
    split at hs
    · cases hs
    · split at hs
      · split at hs
        · split at hs
          · cases hs; exact hpop t
          · cases hs; exact hpop t
        · split at hs
          · cases hs; exact hpop t
          · cases hs
      · cases hs

theorem call_own_run {C : CallCfg} {own : List Nat} (es : List CallEv) : ∀ {s s' : CallSt}, (∀ f ∈ s.frames, f.serving = none → f.thread ∈ own) → s.run C es = some s' →
    ∀ f ∈ s'.frames, f.serving = none → f.thread ∈ own := by
  induction es with
  | nil => intro s s' h hs; cases hs; exact h
  | cons e es ih =>
    intro s s' h hs
    simp only [CallSt.run, Option.bind_eq_some_iff] at hs
    obtain ⟨s1, h1, h2⟩ := hs
    exact ih (call_own_step h e h1) h2

theorem call_run_append (C : CallCfg) (es es' : List CallEv) : ∀ (a b c : CallSt), a.run C es = some b → b.run C es' = some c → a.run C (es ++ es') = some c := by
  induction es with
  | nil => intro a b c h1 h2; cases h1; exact h2
  | cons e es ih =>
    intro a b c h1 h2
    simp only [CallSt.run, Option.bind_eq_some_iff, List.cons_append] at h1 ⊢
    obtain ⟨x, hx, h1⟩ := h1
    exact ⟨x, hx, ih x b c h1 h2⟩

/-- A thread with a lazy server executes its own code, so that it serves nobody now. -/
def CallSt.Busy (C : CallCfg) (s : CallSt) (t : Nat) : Prop := C.kind t = .lazy ∧ ∃ f, s.top t = some f ∧ f.serving = none ∧ f.waiting = none

/-- **C49** (everything finishes) From every reachable situation: if from now on user code makes no further calls but ends, then every history is finite, and when it cannot go on, no
call is unfinished, unless some thread with a lazy server is busy with its own code. -/
theorem C49_finishes (C : CallCfg) (own : List Nat) (hC : C.Fair own) (s : CallSt) (hs : s.Reachable C own) (es : List CallEv) (s' : CallSt)
    (hes : ∀ e ∈ es, e.adds = 0) (hrun : s.run C es = some s') :
    es.length ≤ s.work ∧ ((∀ e : CallEv, e.adds = 0 → s'.step C e = none) → s'.Unfinished → ∃ t, s'.Busy C t) := by
  constructor
  · have := C49_bounded C es s s' hrun
    have h1 : (es.filter fun e => decide (e.adds = 0)) = es := List.filter_eq_self.mpr fun e he => by simp [hes e he]
    have h2 : (es.map CallEv.adds).sum = 0 := by
      clear hrun this h1
      induction es with
      | nil => rfl
      | cons e es ih =>
        rw [List.map_cons, List.sum_cons, hes e List.mem_cons_self, ih fun e he => hes e (List.mem_cons_of_mem _ he)]
    rw [h1, h2] at this
    exact this
  · intro hend hu
    obtain ⟨es0, h0⟩ := hs
    have hall := call_run_append C _ _ _ _ _ h0 hrun
    have hown := call_own_run (own := own) (es0 ++ es) (s := CallSt.init own)
      (fun f hf _ => by obtain ⟨t, ht, rfl⟩ := List.mem_map.mp hf; exact ht) hall
    rcases C49 C own hC s' ⟨_, hall⟩ hu with ⟨t, f, hf, hw⟩ | ⟨e, he, hne⟩
    · have hft : f.thread = t := by simpa using List.find?_some hf
      have hfin := hend (.finish t) rfl
      simp only [CallSt.step, hf, hw, if_true] at hfin
      cases hsv : f.serving with
      | some r =>
        rw [hsv] at hfin
        simp only at hfin
        split at hfin <;> cases hfin
      | none =>
        rw [hsv] at hfin
        simp only at hfin
        have ho := hown f (List.mem_of_find?_eq_some hf) hsv
        rw [hft] at ho
        cases hk : C.kind t with
        | loop => exact absurd hk (hC.own t ho)
        | plain => rw [if_pos hk] at hfin; cases hfin
        | lazy => exact ⟨t, hk, f, hf, hsv, hw⟩
    · refine absurd (hend e ?_) hne
      cases e <;> first | rfl | cases he

/-- **C49** (the awaited replies come) When no call is unfinished, every future that is left is done or its reply has come. -/
theorem C49_replies (C : CallCfg) (own : List Nat) (hC : C.Fair own) (s : CallSt) (hs : s.Reachable C own) (hu : ¬ s.Unfinished) (f : CallFrame) (hf : f ∈ s.frames) (w : CallFut)
    (hw : w ∈ f.futs) : s.isDone f.thread w = true ∨ (f.thread, w.dst, w.rid) ∈ s.replies := by
  obtain ⟨es, hes⟩ := hs
  have hinv : s.Inv C := call_inv_run hC.noLeak es (call_inv_init C own hC.lazy) hes
  rcases hinv.located f hf w (.inl hw) with hl | hl | ⟨g, hg, -, hgs⟩ | hl
  · exact .inl hl
  · exact absurd (.inl (List.ne_nil_of_mem hl)) hu
  · exact absurd (.inr (.inl ⟨g, hg, by rw [hgs]; simp⟩)) hu
  · exact .inr hl

/-! ## Examples -/

/-- Thread 0 is a program without server; 1 and 2 run servers; 3 is a program with a lazy server; 4 is a Qt program. -/
def Ex.calls : CallCfg := { kind := fun t => if t = 0 then .plain else if t = 3 ∨ t = 4 then .lazy else .loop, qt := fun t => t = 4 }

example : Ex.calls.Fair [0, 3, 4] := by
  refine ⟨fun _ _ => rfl, rfl, fun t ht => ?_, fun t ht => ?_⟩
  · simp only [Ex.calls] at ht
    split at ht
    · cases ht
    · split at ht
      · rename_i h; rcases h with rfl | rfl <;> simp
      · cases ht
  · simp only [List.mem_cons, List.not_mem_nil, or_false] at ht
    rcases ht with rfl | rfl | rfl <;> decide

/-- 3 calls 1, which calls 2, which calls 3 back, which calls itself. -/
def Ex.nested : List CallEv := [.send 3 1 true, .await 3 ⟨1, 0, 0⟩, .serve 1 3, .send 1 2 true, .await 1 ⟨2, 0, 1⟩, .serve 2 1, .send 2 3 true, .await 2 ⟨3, 0, 2⟩, .serve 3 2,
  .send 3 3 true, .await 3 ⟨3, 0, 3⟩]

example : ((CallSt.init [0, 3, 4]).run Ex.calls Ex.nested).map (fun s => (s.requests.length, s.frames.length)) = some (1, 6) := by decide +kernel
example : ((CallSt.init [0, 3, 4]).run Ex.calls (Ex.nested ++ [.serve 3 3, .finish 3, .readReply 3, .resume 3, .finish 3, .readReply 2, .resume 2, .finish 2, .readReply 1, .resume 1,
  .finish 1, .readReply 3, .resume 3])).map (fun s => (s.requests.length, s.frames.length)) = some (0, 3) := by decide +kernel

/-- A deadlock: some call is unfinished, no thread executes user code, nothing can happen but timeouts. -/
def CallSt.Deadlock (C : CallCfg) (s : CallSt) : Prop := s.Unfinished ∧ (∀ t, ¬ s.Executing t) ∧ ∀ e : CallEv, e.machine = true → s.step C e = none

/-- **C49** in the form: no deadlock. -/
theorem C49_no_deadlock (C : CallCfg) (own : List Nat) (hC : C.Fair own) (s : CallSt) (hs : s.Reachable C own) : ¬ s.Deadlock C := by
  intro ⟨hu, hx, he⟩
  rcases C49 C own hC s hs hu with ⟨t, ht⟩ | ⟨e, hm, hne⟩
  · exact hx t ht
  · exact hne (he e hm)

theorem call_nothing {C : CallCfg} {s : CallSt} (h1 : s.replies = []) (h2 : s.done = []) (h3 : ∀ r ∈ s.requests, s.mayServe C r.dst = false) (e : CallEv) (he : e.machine = true) :
    s.step C e = none := by
  cases e with
  | readReply t =>
    simp only [CallSt.step, h1, List.find?_nil]
    split
    · rfl
    · split
      · rfl
      · split <;> rfl
  | resume t =>
    simp only [CallSt.step, CallSt.isDone, h2]
    split
    · rfl
    · split <;> rfl
  | serve t src =>
    simp only [CallSt.step]
    split
    · rename_i hm
      cases hf : s.requests.find? (fun r => r.src = src ∧ r.dst = t) with
      | none => rfl
      | some r =>
        have h := h3 r (List.mem_of_find?_eq_some hf)
        have hr : r.src = src ∧ r.dst = t := by simpa using List.find?_some hf
        rw [hr.2, hm] at h; cases h
    · rfl
  | _ => cases he

theorem not_executing {s : CallSt} (h : ∀ f ∈ s.frames, f.waiting ≠ none) (t : Nat) : ¬ s.Executing t := by
  intro ⟨f, hf, hw⟩
  exact h f (List.mem_of_find?_eq_some hf) hw

/-- What is assumed about clients is needed: if they are not reentrant, two threads that call each other stop for ever. -/
theorem C49_needs_reentrant : ∃ C : CallCfg, C.leak = false ∧ ∃ s : CallSt, s.Reachable C [0] ∧ s.Deadlock C := by
  refine ⟨{ Ex.calls with reentrant := fun _ _ => false }, rfl, _, ⟨[.send 0 1 true, .await 0 ⟨1, 0, 0⟩, .serve 1 0, .send 1 2 true, .await 1 ⟨2, 0, 1⟩, .serve 2 1, .send 2 1 true,
    .await 2 ⟨1, 0, 2⟩], rfl⟩, .inl (by decide +kernel), not_executing (by decide +kernel), call_nothing (by decide +kernel) (by decide +kernel) (by decide +kernel)⟩

/-- What is assumed about futures is needed: with reentrant clients, code that waits for a future made by an outer call of its thread can stop everything for ever.
3 sends to 1 and waits; 1 calls 3, whose code waits for the same future. -/
theorem C49_needs_own_futures : ∃ C : CallCfg, (∀ a b, C.reentrant a b = true) ∧ ∃ s : CallSt, s.Reachable C [3] ∧ s.Deadlock C := by
  refine ⟨{ Ex.calls with leak := true }, fun _ _ => rfl, _, ⟨[.send 3 1 true, .await 3 ⟨1, 0, 0⟩, .serve 1 3, .send 1 3 true, .await 1 ⟨3, 0, 1⟩, .serve 3 1, .await 3 ⟨1, 0, 0⟩], rfl⟩,
    .inr (.inr ?_), not_executing (by decide +kernel), call_nothing (by decide +kernel) (by decide +kernel) (by decide +kernel)⟩
  decide +kernel

namespace Ex

/-! ## The theorems on these cases -/

theorem calls_fair : calls.Fair [0, 3, 4] := by
  refine ⟨fun _ _ => rfl, rfl, fun t ht => ?_, fun t ht => ?_⟩
  · simp only [calls] at ht
    split at ht
    · cases ht
    · split at ht
      · rename_i h; rcases h with rfl | rfl <;> simp
      · cases ht
  · simp only [List.mem_cons, List.not_mem_nil, or_false] at ht
    rcases ht with rfl | rfl | rfl <;> decide
theorem nested_run : ∃ s, (CallSt.init [0, 3, 4]).run calls nested = some s ∧ s.requests ≠ [] := by
  have h : ((CallSt.init [0, 3, 4]).run calls nested).map (fun s => s.requests.length) = some 1 := by decide +kernel
  obtain ⟨s, h1, h2⟩ := Option.map_eq_some_iff.1 h
  exact ⟨s, h1, by intro h3; rw [h3] at h2; cases h2⟩
example := C49 calls [0, 3, 4] calls_fair _ ⟨_, nested_run.choose_spec.1⟩ (.inl nested_run.choose_spec.2)
example := C49_no_deadlock calls [0, 3, 4] calls_fair _ ⟨_, nested_run.choose_spec.1⟩
example := C49_bounded calls _ _ _ nested_run.choose_spec.1
/-- From the innermost call to the end. -/
def unwind : List CallEv := [.serve 3 3, .finish 3, .readReply 3, .resume 3, .finish 3, .readReply 2, .resume 2, .finish 2, .readReply 1, .resume 1, .finish 1, .readReply 3, .resume 3]
theorem unwind_run : ∃ s s', (CallSt.init [0, 3, 4]).run calls nested = some s ∧ s.run calls unwind = some s' := by
  have h : (((CallSt.init [0, 3, 4]).run calls nested).bind (fun s => s.run calls unwind)).isSome = true := by decide +kernel
  obtain ⟨s', h1⟩ := Option.isSome_iff_exists.1 h
  obtain ⟨s, h2, h3⟩ := Option.bind_eq_some_iff.1 h1
  exact ⟨s, s', h2, h3⟩
example := C49_finishes calls [0, 3, 4] calls_fair _ ⟨_, unwind_run.choose_spec.choose_spec.1⟩ unwind _ (by decide) unwind_run.choose_spec.choose_spec.2
/-- 3 has sent a request to 1 and does not wait; 1 has served it: the reply is on its way. -/
theorem replied_run : ∃ s, (CallSt.init [0, 3, 4]).run calls [.send 3 1 true, .serve 1 3, .finish 1] = some s ∧ ¬ s.Unfinished ∧
    ∃ f ∈ s.frames, (⟨1, 0, 0⟩ : CallFut) ∈ f.futs := by
  refine ⟨_, rfl, ?_, ?_⟩
  · unfold CallSt.Unfinished; decide +kernel
  · decide +kernel
example := C49_replies calls [0, 3, 4] calls_fair _ ⟨_, replied_run.choose_spec.1⟩ replied_run.choose_spec.2.1 _ replied_run.choose_spec.2.2.choose_spec.1 _ replied_run.choose_spec.2.2.choose_spec.2

end Ex

end Verif
