import Verif.Model.Threads
/-!
# Invariants of threads that call each other
-/
namespace Verif

/-! ## Lists -/

theorem mem_setTop {t : Nat} {g : CallFrame → CallFrame} {l : List CallFrame} {f : CallFrame} (h : f ∈ setTop t g l) :
    f ∈ l ∨ ∃ f', l.find? (fun f => f.thread = t) = some f' ∧ f = g f' := by
  induction l with
  | nil => cases h
  | cons a l ih =>
    simp only [setTop] at h
    split at h
    · rename_i ht
      rcases List.mem_cons.mp h with h | h
      · exact .inr ⟨a, by simp [List.find?, ht], h⟩
      · exact .inl (List.mem_cons_of_mem _ h)
    · rename_i ht
      rcases List.mem_cons.mp h with h | h
      · exact .inl (h ▸ List.mem_cons_self)
      · rcases ih h with h | ⟨f', h1, h2⟩
        · exact .inl (List.mem_cons_of_mem _ h)
        · exact .inr ⟨f', by simp [List.find?, ht, h1], h2⟩

theorem setTop_mem {t : Nat} {g : CallFrame → CallFrame} {l : List CallFrame} {f : CallFrame} (h : f ∈ l) :
    f ∈ setTop t g l ∨ g f ∈ setTop t g l := by
  induction l with
  | nil => cases h
  | cons a l ih =>
    simp only [setTop]
    split
    · rcases List.mem_cons.mp h with h | h
      · subst h; exact .inr List.mem_cons_self
      · exact .inl (List.mem_cons_of_mem _ h)
    · rcases List.mem_cons.mp h with h | h
      · subst h; exact .inl List.mem_cons_self
      · rcases ih h with h | h
        · exact .inl (List.mem_cons_of_mem _ h)
        · exact .inr (List.mem_cons_of_mem _ h)

theorem mem_popTop {t : Nat} {l : List CallFrame} {f : CallFrame} (h : f ∈ popTop t l) : f ∈ l := by
  induction l with
  | nil => cases h
  | cons a l ih =>
    simp only [popTop] at h
    split at h
    · exact List.mem_cons_of_mem _ h
    · rcases List.mem_cons.mp h with h | h
      · exact h ▸ List.mem_cons_self
      · exact List.mem_cons_of_mem _ (ih h)

theorem popTop_mem {t : Nat} {l : List CallFrame} {f : CallFrame} (h : f ∈ l) :
    f ∈ popTop t l ∨ l.find? (fun f => f.thread = t) = some f := by
  induction l with
  | nil => cases h
  | cons a l ih =>
    simp only [popTop]
    split
    · rename_i ht
      rcases List.mem_cons.mp h with h | h
      · subst h; exact .inr (by simp [List.find?, ht])
      · exact .inl h
    · rename_i ht
      rcases List.mem_cons.mp h with h | h
      · subst h; exact .inl List.mem_cons_self
      · rcases ih h with h | h
        · exact .inl (List.mem_cons_of_mem _ h)
        · exact .inr (by simp [List.find?, ht, h])

theorem mem_dropFirst {α : Type} {p : α → Bool} {l : List α} {a : α} (h : a ∈ dropFirst p l) : a ∈ l := by
  induction l with
  | nil => cases h
  | cons b l ih =>
    simp only [dropFirst] at h
    split at h
    · exact List.mem_cons_of_mem _ h
    · rcases List.mem_cons.mp h with h | h
      · exact h ▸ List.mem_cons_self
      · exact List.mem_cons_of_mem _ (ih h)

theorem dropFirst_mem {α : Type} {p : α → Bool} {l : List α} {a : α} (h : a ∈ l) : a ∈ dropFirst p l ∨ l.find? p = some a := by
  induction l with
  | nil => cases h
  | cons b l ih =>
    simp only [dropFirst]
    by_cases hp : p b = true
    · rw [if_pos hp]
      rcases List.mem_cons.mp h with h | h
      · subst h; exact .inr (by simp [List.find?, hp])
      · exact .inl h
    · rw [if_neg hp]
      rcases List.mem_cons.mp h with h | h
      · subst h; exact .inl List.mem_cons_self
      · rcases ih h with h | h
        · exact .inl (List.mem_cons_of_mem _ h)
        · exact .inr (by simp [List.find?, hp, h])

theorem dropFirst_length {α : Type} {p : α → Bool} {l : List α} {a : α} (h : l.find? p = some a) : (dropFirst p l).length + 1 = l.length := by
  induction l with
  | nil => cases h
  | cons b l ih =>
    simp only [dropFirst]
    by_cases hp : p b = true
    · rw [if_pos hp]; rfl
    · rw [if_neg hp]
      simp only [List.find?, hp] at h
      simp only [List.length_cons, ih h]

/-- Frames from new to old have starts from late to early. -/
def Descending (l : List CallFrame) : Prop := l.Pairwise fun a b => b.start ≤ a.start

theorem top_latest {t : Nat} {l : List CallFrame} {f g : CallFrame} (hd : Descending l) (hf : l.find? (fun f => f.thread = t) = some f) (hg : g ∈ l) (ht : g.thread = t) :
    g.start ≤ f.start := by
  induction l with
  | nil => cases hg
  | cons a l ih =>
    rw [Descending, List.pairwise_cons] at hd
    by_cases ha : a.thread = t
    · have : a = f := by simpa [List.find?, ha] using hf
      subst this
      rcases List.mem_cons.mp hg with h | h
      · subst h; exact Nat.le_refl _
      · exact hd.1 _ h
    · have hf' : l.find? (fun f => f.thread = t) = some f := by simpa [List.find?, ha] using hf
      rcases List.mem_cons.mp hg with h | h
      · subst h; exact absurd ht ha
      · exact ih hd.2 hf' h

theorem setTop_descending {t : Nat} {g : CallFrame → CallFrame} (hg : ∀ f, (g f).start = f.start) {l : List CallFrame} (h : Descending l) : Descending (setTop t g l) := by
  induction l with
  | nil => exact h
  | cons a l ih =>
    rw [Descending, List.pairwise_cons] at h
    simp only [setTop]
    split
    · rw [Descending, List.pairwise_cons]
      exact ⟨fun b hb => by rw [hg]; exact h.1 b hb, h.2⟩
    · rw [Descending, List.pairwise_cons]
      refine ⟨fun b hb => ?_, ih h.2⟩
      rcases mem_setTop hb with hb | ⟨f', hf, rfl⟩
      · exact h.1 b hb
      · rw [hg]; exact h.1 _ (List.mem_of_find?_eq_some hf)

theorem popTop_descending {t : Nat} {l : List CallFrame} (h : Descending l) : Descending (popTop t l) := by
  induction l with
  | nil => exact h
  | cons a l ih =>
    rw [Descending, List.pairwise_cons] at h
    simp only [popTop]
    split
    · exact h.2
    · rw [Descending, List.pairwise_cons]
      exact ⟨fun b hb => h.1 b (mem_popTop hb), ih h.2⟩

/-! ## The invariant -/

/-- Where the call of a future of thread `t` is: done, or its request, its code or its reply exists. -/
def CallSt.Located (s : CallSt) (t : Nat) (w : CallFut) : Prop :=
  s.isDone t w = true ∨ ⟨t, w.dst, some w.rid, w.time⟩ ∈ s.requests ∨ (∃ g ∈ s.frames, g.thread = w.dst ∧ g.serving = some ⟨t, w.dst, some w.rid, w.time⟩) ∨
  (t, w.dst, w.rid) ∈ s.replies

/-- The futures that a frame made, and the one it waits for. -/
def CallFrame.mine (f : CallFrame) (w : CallFut) : Prop := w ∈ f.futs ∨ f.waiting = some w

structure CallSt.Inv (C : CallCfg) (s : CallSt) : Prop where
  starts : ∀ f ∈ s.frames, f.start ≤ s.time
  later : ∀ f ∈ s.frames, ∀ w, f.mine w → f.start ≤ w.time
  before : ∀ f ∈ s.frames, ∀ r, f.serving = some r → r.time < f.start ∧ r.dst = f.thread
  requests : ∀ r ∈ s.requests, r.time < s.time ∧ C.kind r.dst ≠ .plain
  order : Descending s.frames
  located : ∀ f ∈ s.frames, ∀ w, f.mine w → s.Located f.thread w
  lazy : ∀ t, C.kind t = .lazy → ∃ f ∈ s.frames, f.thread = t ∧ f.serving = none

theorem call_inv_init (C : CallCfg) (own : List Nat) (h : ∀ t, C.kind t = .lazy → t ∈ own) : (CallSt.init own).Inv C := by
  refine ⟨?_, ?_, ?_, ?_, ?_, ?_, ?_⟩
  · intro f hf
    obtain ⟨t, -, rfl⟩ := List.mem_map.mp hf
    exact Nat.le_refl _
  · intro f hf w hw
    obtain ⟨t, -, rfl⟩ := List.mem_map.mp hf
    rcases hw with hw | hw
    · cases hw
    · cases hw
  · intro f hf r hr
    obtain ⟨t, -, rfl⟩ := List.mem_map.mp hf
    cases hr
  · intro r hr; cases hr
  · simp only [CallSt.init, Descending]
    rw [List.pairwise_map]
    exact List.pairwise_of_forall fun _ _ => Nat.le_refl _
  · intro f hf w hw
    obtain ⟨t, -, rfl⟩ := List.mem_map.mp hf
    rcases hw with hw | hw
    · cases hw
    · cases hw
  · intro t ht
    exact ⟨_, List.mem_map.mpr ⟨t, h t ht, rfl⟩, rfl, rfl⟩

/-- A change of the top frame that leaves its thread, request and start. -/
theorem call_inv_set {C : CallCfg} {s : CallSt} (h : s.Inv C) (t : Nat) (g : CallFrame → CallFrame) (hg : ∀ f, (g f).thread = f.thread ∧ (g f).serving = f.serving ∧ (g f).start = f.start)
    (s' : CallSt) (hf : s'.frames = setTop t g s.frames) (htime : s.time ≤ s'.time)
    (hreq : ∀ r ∈ s'.requests, r.time < s'.time ∧ C.kind r.dst ≠ .plain)
    (hkeep : s.requests ⊆ s'.requests ∧ s.replies ⊆ s'.replies ∧ s.done ⊆ s'.done)
    (hnew : ∀ f, s.top t = some f → ∀ w, (g f).mine w → f.mine w ∨ (f.start ≤ w.time ∧ s'.Located t w)) : s'.Inv C := by
  have hloc : ∀ t w, s.Located t w → s'.Located t w := by
    intro t' w hl
    rcases hl with hl | hl | ⟨x, hx, hx1, hx2⟩ | hl
    · left
      simp only [CallSt.isDone, List.contains_iff_mem] at hl ⊢
      exact hkeep.2.2 hl
    · exact .inr (.inl (hkeep.1 hl))
    · right; right; left
      rw [hf]
      rcases setTop_mem (t := t) (g := g) hx with hx' | hx'
      · exact ⟨x, hx', hx1, hx2⟩
      · exact ⟨g x, hx', by rw [(hg x).1, hx1], by rw [(hg x).2.1, hx2]⟩
    · exact .inr (.inr (.inr (hkeep.2.1 hl)))
  have hth : ∀ f, s.frames.find? (fun f => f.thread = t) = some f → f.thread = t := fun f hf => by simpa using List.find?_some hf
  constructor
  · intro f hm
    rw [hf] at hm
    rcases mem_setTop hm with hm | ⟨f', hm', rfl⟩
    · exact Nat.le_trans (h.starts f hm) htime
    · rw [(hg f').2.2]; exact Nat.le_trans (h.starts f' (List.mem_of_find?_eq_some hm')) htime
  · intro f hm w hw
    rw [hf] at hm
    rcases mem_setTop hm with hm | ⟨f', hm', rfl⟩
    · exact h.later f hm w hw
    · rw [(hg f').2.2]
      rcases hnew f' hm' w hw with hw | hw
      · exact h.later f' (List.mem_of_find?_eq_some hm') w hw
      · exact hw.1
  · intro f hm r hr
    rw [hf] at hm
    rcases mem_setTop hm with hm | ⟨f', hm', rfl⟩
    · exact h.before f hm r hr
    · rw [(hg f').2.2, (hg f').1]; exact h.before f' (List.mem_of_find?_eq_some hm') r (by rw [← (hg f').2.1]; exact hr)
  · exact hreq
  · rw [hf]; exact setTop_descending (fun f => (hg f).2.2) h.order
  · intro f hm w hw
    rw [hf] at hm
    rcases mem_setTop hm with hm | ⟨f', hm', rfl⟩
    · exact hloc _ _ (h.located f hm w hw)
    · rw [(hg f').1]
      rcases hnew f' hm' w hw with hw | hw
      · exact hloc _ _ (h.located f' (List.mem_of_find?_eq_some hm') w hw)
      · rw [hth f' hm']; exact hw.2
  · intro t' ht'
    obtain ⟨f, hm, h1, h2⟩ := h.lazy t' ht'
    rw [hf]
    rcases setTop_mem (t := t) (g := g) hm with hm | hm
    · exact ⟨f, hm, h1, h2⟩
    · exact ⟨g f, hm, by rw [(hg f).1, h1], by rw [(hg f).2.1, h2]⟩

theorem call_inv_step {C : CallCfg} (hC : C.leak = false) {s s' : CallSt} (h : s.Inv C) (e : CallEv) (hs : s.step C e = some s') : s'.Inv C := by
  cases e with
  | send t dst wants =>
    simp only [CallSt.step] at hs
    split at hs
    · cases hs
    · rename_i f hf
      split at hs
      · rename_i hc
        have hr : ∀ (rid : Option Nat), ∀ r ∈ s.requests ++ [⟨t, dst, rid, s.time⟩], r.time < s.time + 1 ∧ C.kind r.dst ≠ .plain := by
          intro rid r hr
          rcases List.mem_append.mp hr with hr | hr
          · exact ⟨Nat.lt_succ_of_lt (h.requests r hr).1, (h.requests r hr).2⟩
          · rw [List.mem_singleton] at hr
            subst hr
            exact ⟨Nat.lt_succ_self _, hc.2⟩
        split at hs
        · cases hs
          refine call_inv_set h t (fun f => { f with futs := ⟨dst, s.ids t dst, s.time⟩ :: f.futs }) (fun f => ⟨rfl, rfl, rfl⟩) _ rfl (Nat.le_succ _) (hr _) ⟨List.subset_append_left _ _, fun _ h => h, fun _ h => h⟩ ?_
          intro f' hf' w hw
          rw [hf] at hf'; cases hf'
          rcases hw with hw | hw
          · rcases List.mem_cons.mp hw with hw | hw
            · subst hw
              exact .inr ⟨h.starts f (List.mem_of_find?_eq_some hf), .inr (.inl (by simp))⟩
            · exact .inl (.inl hw)
          · exact .inl (.inr hw)
        · cases hs
          refine ⟨fun f hf => Nat.le_succ_of_le (h.starts f hf), h.later, h.before, hr _, h.order, ?_, h.lazy⟩
          intro f hf w hw
          rcases h.located f hf w hw with hl | hl | hl | hl
          · exact .inl hl
          · exact .inr (.inl (List.mem_append_left _ hl))
          · exact .inr (.inr (.inl hl))
          · exact .inr (.inr (.inr hl))
      · cases hs
  | await t w =>
    simp only [CallSt.step] at hs
    split at hs
    · cases hs
    · rename_i f hf
      split at hs
      · rename_i hc
        cases hs
        refine call_inv_set h t (fun f => { f with waiting := some w }) (fun f => ⟨rfl, rfl, rfl⟩) _ rfl (Nat.le_refl _) h.requests ⟨fun _ h => h, fun _ h => h, fun _ h => h⟩ ?_
        intro f' hf' w' hw'
        rw [hf] at hf'; cases hf'
        rcases hw' with hw' | hw'
        · exact .inl (.inl hw')
        · cases hw'
          rcases hc.2 with hw | ⟨hl, -⟩
          · exact .inl (.inl hw)
          · rw [hC] at hl; cases hl
      · cases hs
  | readReply t =>
    simp only [CallSt.step] at hs
    split at hs
    · cases hs
    · rename_i f hf
      split at hs
      · cases hs
      · rename_i w hw
        split at hs
        · cases hs
        · split at hs
          · cases hs
          · rename_i m hm
            cases hs
            refine ⟨h.starts, h.later, h.before, h.requests, h.order, ?_, h.lazy⟩
            intro f' hf' w' hw'
            rcases h.located f' hf' w' hw' with hl | hl | hl | hl
            · left
              simp only [CallSt.isDone, List.contains_iff_mem] at hl ⊢
              exact List.mem_cons_of_mem _ hl
            · exact .inr (.inl hl)
            · exact .inr (.inr (.inl hl))
            · rcases dropFirst_mem (p := fun m : Nat × Nat × Nat => m.1 = t ∧ m.2.1 = w.dst) hl with hl | hl
              · exact .inr (.inr (.inr hl))
              · rw [hm] at hl
                cases hl
                left
                simp [CallSt.isDone]
  | serve t src =>
    simp only [CallSt.step] at hs
    split at hs
    · split at hs
      · cases hs
      · rename_i r hr
        cases hs
        have hmem := List.mem_of_find?_eq_some hr
        have hrr : r.src = src ∧ r.dst = t := by simpa using List.find?_some hr
        refine ⟨?_, ?_, ?_, ?_, ?_, ?_, ?_⟩
        · intro f hf
          rcases List.mem_cons.mp hf with rfl | hf
          · exact Nat.le_refl _
          · exact h.starts f hf
        · intro f hf w hw
          rcases List.mem_cons.mp hf with rfl | hf
          · rcases hw with hw | hw <;> cases hw
          · exact h.later f hf w hw
        · intro f hf r' hr'
          rcases List.mem_cons.mp hf with rfl | hf
          · cases hr'
            exact ⟨(h.requests r hmem).1, hrr.2⟩
          · exact h.before f hf r' hr'
        · exact fun r' hr' => h.requests r' (mem_dropFirst hr')
        · exact List.pairwise_cons.mpr ⟨fun f hf => h.starts f hf, h.order⟩
        · intro f hf w hw
          rcases List.mem_cons.mp hf with rfl | hf
          · rcases hw with hw | hw <;> cases hw
          · rcases h.located f hf w hw with hl | hl | ⟨g, hg, hl⟩ | hl
            · exact .inl hl
            · rcases dropFirst_mem (p := fun r : CallReq => r.src = src ∧ r.dst = t) hl with hl | hl
              · exact .inr (.inl hl)
              · rw [hr] at hl
                cases hl
                exact .inr (.inr (.inl ⟨_, List.mem_cons_self, hrr.2.symm, rfl⟩))
            · exact .inr (.inr (.inl ⟨g, List.mem_cons_of_mem _ hg, hl⟩))
            · exact .inr (.inr (.inr hl))
        · intro t' ht'
          obtain ⟨f, hf, h1⟩ := h.lazy t' ht'
          exact ⟨f, List.mem_cons_of_mem _ hf, h1⟩
    · cases hs
  | resume t =>
    simp only [CallSt.step] at hs
    split at hs
    · cases hs
    · split at hs
      · cases hs
      · split at hs
        · cases hs
          refine call_inv_set h t (fun f => { f with waiting := none }) (fun f => ⟨rfl, rfl, rfl⟩) _ rfl (Nat.le_refl _) h.requests ⟨fun _ h => h, fun _ h => h, fun _ h => h⟩ ?_
          intro f' hf' w' hw'
          rcases hw' with hw' | hw'
          · exact .inl (.inl hw')
          · cases hw'
        · cases hs
  | giveUp t =>
    simp only [CallSt.step] at hs
    split at hs
    · cases hs
    · split at hs
      · cases hs
      · split at hs
        · cases hs
        · cases hs
          refine call_inv_set h t (fun f => { f with waiting := none }) (fun f => ⟨rfl, rfl, rfl⟩) _ rfl (Nat.le_refl _) h.requests ⟨fun _ h => h, fun _ h => h, fun _ h => h⟩ ?_
          intro f' hf' w' hw'
          rcases hw' with hw' | hw'
          · exact .inl (.inl hw')
          · cases hw'
  | finish t =>
    simp only [CallSt.step] at hs
    split at hs
    · cases hs
    · rename_i f hf
      have hft : f.thread = t := by simpa using List.find?_some hf
      split at hs
      · have key : ∀ reps, (∀ x ∈ s.replies, x ∈ reps) → (∀ r, f.serving = some r → ∀ k, r.rid = some k → (r.src, r.dst, k) ∈ reps) → (f.serving = none → C.kind t = .plain) →
            ({ s with frames := popTop t s.frames, replies := reps } : CallSt).Inv C := by
          intro reps hsub hrep hpl
          refine ⟨fun f hf => h.starts f (mem_popTop hf), fun f hf => h.later f (mem_popTop hf), fun f hf => h.before f (mem_popTop hf), h.requests, popTop_descending h.order, ?_, ?_⟩
          · intro f' hf' w' hw'
            rcases h.located f' (mem_popTop hf') w' hw' with hl | hl | ⟨g, hg, h1, h2⟩ | hl
            · exact .inl hl
            · exact .inr (.inl hl)
            · rcases popTop_mem (t := t) hg with hg | hg
              · exact .inr (.inr (.inl ⟨g, hg, h1, h2⟩))
              · rw [show s.frames.find? (fun f => f.thread = t) = some f from hf] at hg
                cases hg
                exact .inr (.inr (.inr (hrep _ h2 _ rfl)))
            · exact .inr (.inr (.inr (hsub _ hl)))
          · intro t' ht'
            obtain ⟨g, hg, h1, h2⟩ := h.lazy t' ht'
            rcases popTop_mem (t := t) hg with hg | hg
            · exact ⟨g, hg, h1, h2⟩
            · rw [show s.frames.find? (fun f => f.thread = t) = some f from hf] at hg
              cases hg
              have := hpl h2
              rw [h1.symm.trans hft] at ht'
              rw [this] at ht'; cases ht'
        split at hs
        · rename_i r hr
          split at hs
          · rename_i k hk
            cases hs
            exact key _ (fun x hx => List.mem_append_left _ hx) (fun r' hr' k' hk' => by rw [hr] at hr'; cases hr'; rw [hk] at hk'; cases hk'; simp) (fun hn => by rw [hr] at hn; cases hn)
          · rename_i hk
            cases hs
            exact key s.replies (fun x hx => hx) (fun r' hr' k' hk' => by rw [hr] at hr'; cases hr'; rw [hk] at hk'; cases hk') (fun hn => by rw [hr] at hn; cases hn)
        · rename_i hr
          split at hs
          · rename_i hp
            cases hs
            exact key s.replies (fun x hx => hx) (fun r' hr' => by rw [hr] at hr'; cases hr') (fun _ => hp)
          · cases hs
      · cases hs

theorem call_inv_run {C : CallCfg} (hC : C.leak = false) (es : List CallEv) : ∀ {s s' : CallSt}, s.Inv C → s.run C es = some s' → s'.Inv C := by
  induction es with
  | nil => intro s s' h hs; cases hs; exact h
  | cons e es ih =>
    intro s s' h hs
    simp only [CallSt.run, Option.bind_eq_some_iff] at hs
    obtain ⟨s1, h1, h2⟩ := hs
    exact ih (call_inv_step hC h e h1) h2

end Verif
