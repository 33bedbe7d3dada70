import Verif.Spec.Registry
/-! # Proofs about the registries -/
namespace Verif

/-- Induction on a list from its end. -/
theorem snoc_induction {α : Type} {P : List α → Prop} (h0 : P []) (hs : ∀ l a, P l → P (l ++ [a])) : ∀ l, P l := by
  intro l
  have : ∀ l : List α, P l.reverse := by
    intro l
    induction l with
    | nil => exact h0
    | cons a l ih => rw [List.reverse_cons]; exact hs _ _ ih
  simpa using this l.reverse

/-! ## Servers -/

theorem reg_run_append (σ : RegSt) : ∀ (a b : List RegEv),
    σ.run (a ++ b) = (((σ.run a).1.run b).1, (σ.run a).2 ++ ((σ.run a).1.run b).2)
  | [], b => by simp [RegSt.run]
  | e :: a, b => by
    have := reg_run_append (σ.step e).1 a b
    simp only [List.cons_append, RegSt.run, this, List.append_assoc]

theorem reg_run_snoc (σ : RegSt) (a : List RegEv) (e : RegEv) :
    σ.run (a ++ [e]) = (((σ.run a).1.step e).1, (σ.run a).2 ++ ((σ.run a).1.step e).2) := by
  rw [reg_run_append]; simp [RegSt.run]

theorem holder_append (t : Nat) (a : List RegOut) (o : RegOut) :
    holder t (a ++ [o]) = match o with
      | .added t' s => if t' = t then some s else holder t a
      | .removed t' _ => if t' = t then none else holder t a
      | _ => holder t a := by
  unfold holder
  rw [List.foldl_append]
  cases o <;> rfl

@[simp] theorem put_self {β : Type} (f : Nat → β) (n : Nat) (b : β) : put f n b n = b := by simp [put]

theorem put_ne {β : Type} (f : Nat → β) {n m : Nat} (h : m ≠ n) (b : β) : put f n b m = f m := by simp [put, h]

/-- What one step does to the registry and what is observed of it. -/
inductive RegCase (σ : RegSt) : RegSt → List RegOut → Prop
  | quiet (σ' os) (hb : σ'.byThread = σ.byThread) (ho : ∀ o ∈ os, (∀ t s, o ≠ .added t s) ∧ ∀ t s, o ≠ .removed t s) :
      RegCase σ σ' os
  | add (σ' t s) (h : σ.byThread.get? t = none) (hb : σ'.byThread = σ.byThread.set t s) : RegCase σ σ' [.added t s]
  | remove (σ' t s k) (h : σ.byThread.get? k = some s) (hb : σ'.byThread = σ.byThread.erase k) :
      RegCase σ σ' [.removed k s, .unregistered t s (.ok ())]

theorem reg_case (σ : RegSt) (e : RegEv) : RegCase σ (σ.step e).1 (σ.step e).2 := by
  cases e with
  | register t s =>
    simp only [RegSt.step, RegSt.register]
    repeat' split
    all_goals exact .quiet _ _ rfl (by simp)
  | unregister t s =>
    simp only [RegSt.step]
    split
    all_goals exact .quiet _ _ rfl (by simp)
  | go t =>
    simp only [RegSt.step]
    split
    · exact .quiet _ _ rfl (by simp)
    · simp only [RegSt.insert]
      split
      · exact .quiet _ _ rfl (by simp)
      · rename_i h
        exact .add _ t _ (by simpa [Dict.has] using h) rfl
    · exact .quiet _ _ rfl (by simp)
    · simp only [RegSt.leave]
      split
      · exact .quiet _ _ rfl (by simp)
      · split
        · exact .quiet _ _ rfl (by simp)
        · split
          · rename_i h hs; subst hs; exact .remove _ _ _ _ h rfl
          · exact .quiet _ _ rfl (by simp)
  | get t =>
    simp only [RegSt.step]
    split
    all_goals exact .quiet _ _ rfl (by simp)

theorem holder_quiet (t : Nat) (os : List RegOut) : ∀ (a : List RegOut),
    (∀ o ∈ os, (∀ t s, o ≠ .added t s) ∧ ∀ t s, o ≠ .removed t s) → holder t (a ++ os) = holder t a := by
  induction os with
  | nil => intro a _; simp
  | cons o os ih =>
    intro a h
    rw [show a ++ o :: os = (a ++ [o]) ++ os by simp, ih _ (fun o' ho' => h o' (List.mem_cons_of_mem _ ho')),
      holder_append]
    have := h o (List.mem_cons_self ..)
    cases o with
    | added t s => exact absurd rfl (this.1 _ _)
    | removed t s => exact absurd rfl (this.2 _ _)
    | _ => rfl

/-- The registry holds what the observations say, and no thread twice. -/
theorem reg_holder (es : List RegEv) :
    (RegSt.run {} es).1.byThread.WF ∧
      ∀ t, (RegSt.run {} es).1.byThread.get? t = holder t (RegSt.run {} es).2 := by
  induction es using snoc_induction with
  | h0 => exact ⟨by simp [RegSt.run, Dict.WF], fun t => rfl⟩
  | hs es e ih =>
    rw [reg_run_snoc]
    have hc := reg_case (RegSt.run {} es).1 e
    generalize RegSt.run {} es = r at ih hc ⊢
    obtain ⟨σ, os⟩ := r
    dsimp only at ih hc ⊢
    generalize (σ.step e).1 = σ' at hc ⊢
    generalize (σ.step e).2 = o' at hc ⊢
    cases hc with
    | quiet _ hb ho =>
      refine ⟨hb ▸ ih.1, fun t => ?_⟩
      rw [hb, holder_quiet t _ _ ho, ih.2]
    | add t s h hb =>
      refine ⟨hb ▸ Dict.wf_set ih.1 _ _, fun u => ?_⟩
      rw [hb, holder_append, Dict.get?_set, ih.2]
    | remove t s k h hb =>
      refine ⟨hb ▸ Dict.wf_erase ih.1 _, fun u => ?_⟩
      rw [hb, show os ++ [RegOut.removed k s, .unregistered t s (.ok ())]
          = (os ++ [.removed k s]) ++ [.unregistered t s (.ok ())] by simp,
        holder_append, holder_append, Dict.get?_erase, ih.2]

/-- `srv._thread` is set when a registration has succeeded. -/
theorem reg_thread (es : List RegEv) (s : Nat) :
    (RegSt.run {} es).1.thread s ≠ none ↔ ∃ t, .registered t s (.ok ()) ∈ (RegSt.run {} es).2 := by
  induction es using snoc_induction with
  | h0 => simp [RegSt.run]
  | hs es e ih =>
    rw [reg_run_snoc]
    generalize RegSt.run {} es = r at ih ⊢
    obtain ⟨σ, os⟩ := r
    dsimp only at ih ⊢
    have key : ∀ (σ' : RegSt) (o' : List RegOut), σ'.thread = σ.thread →
        (∀ t, .registered t s (.ok ()) ∉ o') →
        (σ'.thread s ≠ none ↔ ∃ t, .registered t s (.ok ()) ∈ os ++ o') := by
      intro σ' o' h1 h2
      rw [h1, ih]; simp [h2]
    cases e with
    | register t s' =>
      simp only [RegSt.step, RegSt.register]
      split
      · split
        · rename_i h
          by_cases hs : s' = s
          · subst hs
            refine ⟨fun _ => ⟨t, by simp⟩, fun _ => ?_⟩
            show σ.thread s' ≠ none
            rw [h]; simp
          · apply key _ _ rfl; simp; intro h'; exact hs h'.symm
        · split
          · apply key _ _ rfl; simp
          · apply key _ _ rfl; simp
      · apply key _ _ rfl; simp
    | unregister t s' =>
      simp only [RegSt.step]; split <;> (apply key _ _ rfl; simp)
    | get t =>
      simp only [RegSt.step]; split <;> (apply key _ _ rfl; simp)
    | go t =>
      simp only [RegSt.step]
      split
      · apply key _ _ rfl; simp
      · simp only [RegSt.insert]; split <;> (apply key _ _ rfl; simp)
      · rename_i s' h
        by_cases hs : s' = s
        · subst hs
          refine ⟨fun _ => ⟨t, by simp⟩, fun _ => by simp⟩
        · have hs' : ¬ s = s' := fun h => hs h.symm
          simp only [put_ne _ hs', ih]
          simp [hs']
      · simp only [RegSt.leave]
        repeat' split
        all_goals (apply key _ _ rfl; simp)

/-- What holds while no two threads register the same server at once. -/
structure RegInv (σ : RegSt) : Prop where
  entry : ∀ t s, σ.byThread.get? t = some s → σ.thread s = some t ∨ σ.pc t = .inserted s
  busy : ∀ t s, σ.registering t s → σ.thread s = none
  uniq : ∀ t t' s, σ.registering t s → σ.registering t' s → t = t'

theorem regInv_run (es : List RegEv) (h : SerialReg es) : RegInv (RegSt.run {} es).1 := by
  induction es using snoc_induction with
  | h0 => exact ⟨by simp [RegSt.run], by simp [RegSt.run, RegSt.registering], by simp [RegSt.run, RegSt.registering]⟩
  | hs es e ih =>
    have ih := ih (fun pre t s post he => h pre t s (post ++ [e]) (by rw [he]; simp))
    have hser : ∀ t s, e = .register t s → ∀ t', t' ≠ t → ¬ (RegSt.run {} es).1.registering t' s :=
      fun t s he => h es t s [] (by rw [he])
    rw [reg_run_snoc]
    generalize RegSt.run {} es = r at ih hser ⊢
    obtain ⟨σ, os⟩ := r
    dsimp only at ih hser ⊢
    clear h
    have idle : ∀ (t : Nat) (b : Dict Nat Nat), (∀ s, σ.pc t ≠ .inserted s) →
        (∀ t s, b.get? t = some s → σ.byThread.get? t = some s) →
        RegInv { byThread := b, thread := σ.thread, pc := put σ.pc t .idle } := by
      intro t b hp hb
      refine ⟨fun u s hu => ?_, fun u s hu => ?_, fun u u' s hu hu' => ?_⟩
      · rcases ih.entry u s (hb _ _ hu) with h' | h'
        · exact .inl h'
        · by_cases hut : u = t
          · subst hut; exact absurd h' (hp s)
          · right; show put σ.pc t .idle u = _; rw [put_ne _ hut]; exact h'
      · by_cases hut : u = t
        · subst hut; simp [RegSt.registering] at hu
        · exact ih.busy u s (by simpa [RegSt.registering, put_ne _ hut] using hu)
      · by_cases hut : u = t
        · subst hut; simp [RegSt.registering] at hu
        · by_cases hut' : u' = t
          · subst hut'; simp [RegSt.registering] at hu'
          · exact ih.uniq u u' s (by simpa [RegSt.registering, put_ne _ hut] using hu)
              (by simpa [RegSt.registering, put_ne _ hut'] using hu')
    cases e with
    | register t s =>
      simp only [RegSt.step, RegSt.register]
      split
      · rename_i hidle
        split
        · exact ih
        · split
          · exact ih
          · rename_i h1 h2
            have hnone : σ.thread s = none := Classical.byContradiction h2
            refine ⟨fun u x hu => ?_, fun u x hu => ?_, fun u u' x hu hu' => ?_⟩
            · rcases ih.entry u x hu with h' | h'
              · exact .inl h'
              · by_cases hut : u = t
                · subst hut; rw [hidle] at h'; cases h'
                · right; show put σ.pc t _ u = _; rw [put_ne _ hut]; exact h'
            · by_cases hut : u = t
              · subst hut; simp [RegSt.registering] at hu; subst hu; exact hnone
              · exact ih.busy u x (by simpa [RegSt.registering, put_ne _ hut] using hu)
            · by_cases hut : u = t
              · by_cases hut' : u' = t
                · rw [hut, hut']
                · subst hut; simp [RegSt.registering] at hu; subst hu
                  exact absurd (by simpa [RegSt.registering, put_ne _ hut'] using hu') (hser u s rfl u' hut')
              · by_cases hut' : u' = t
                · subst hut'; simp [RegSt.registering] at hu'; subst hu'
                  exact absurd (by simpa [RegSt.registering, put_ne _ hut] using hu) (hser u' s rfl u hut)
                · exact ih.uniq u u' x (by simpa [RegSt.registering, put_ne _ hut] using hu)
                    (by simpa [RegSt.registering, put_ne _ hut'] using hu')
      · exact ih
    | unregister t s =>
      simp only [RegSt.step]
      split
      · rename_i hidle
        refine ⟨fun u x hu => ?_, fun u x hu => ?_, fun u u' x hu hu' => ?_⟩
        · rcases ih.entry u x hu with h' | h'
          · exact .inl h'
          · by_cases hut : u = t
            · subst hut; rw [hidle] at h'; cases h'
            · right; show put σ.pc t _ u = _; rw [put_ne _ hut]; exact h'
        · by_cases hut : u = t
          · subst hut; simp [RegSt.registering] at hu
          · exact ih.busy u x (by simpa [RegSt.registering, put_ne _ hut] using hu)
        · by_cases hut : u = t
          · subst hut; simp [RegSt.registering] at hu
          · by_cases hut' : u' = t
            · subst hut'; simp [RegSt.registering] at hu'
            · exact ih.uniq u u' x (by simpa [RegSt.registering, put_ne _ hut] using hu)
                (by simpa [RegSt.registering, put_ne _ hut'] using hu')
      · exact ih
    | get t => simp only [RegSt.step]; split <;> exact ih
    | go t =>
      simp only [RegSt.step]
      split
      · exact ih
      · rename_i s hs
        simp only [RegSt.insert]
        split
        · exact idle t σ.byThread (by rw [hs]; simp) (fun _ _ h => h)
        · rename_i h
          have hreg : σ.registering t s := .inl hs
          refine ⟨fun u x hu => ?_, fun u x hu => ?_, fun u u' x hu hu' => ?_⟩
          · dsimp only at hu
            rw [Dict.get?_set] at hu
            split at hu
            · rename_i htu; subst htu; cases hu; right; simp
            · rename_i htu
              rcases ih.entry u x hu with h' | h'
              · exact .inl h'
              · right; show put σ.pc t _ u = _; rw [put_ne _ (fun h => htu h.symm)]; exact h'
          · by_cases hut : u = t
            · subst hut; simp [RegSt.registering] at hu; subst hu; exact ih.busy u s hreg
            · exact ih.busy u x (by simpa [RegSt.registering, put_ne _ hut] using hu)
          · have back : ∀ v, RegSt.registering { σ with byThread := σ.byThread.set t s, pc := put σ.pc t (.inserted s) } v x →
                σ.registering v x := by
              intro v hv
              by_cases hvt : v = t
              · subst hvt; simp [RegSt.registering] at hv; subst hv; exact hreg
              · simpa [RegSt.registering, put_ne _ hvt] using hv
            exact ih.uniq u u' x (back u hu) (back u' hu')
      · rename_i s hs
        have hreg : σ.registering t s := .inr hs
        refine ⟨fun u x hu => ?_, fun u x hu => ?_, fun u u' x hu hu' => ?_⟩
        · dsimp only at hu ⊢
          rcases ih.entry u x hu with h' | h'
          · left
            have : x ≠ s := by rintro rfl; rw [ih.busy t x hreg] at h'; cases h'
            rw [put_ne _ this]; exact h'
          · by_cases hut : u = t
            · subst hut; rw [hs] at h'; cases h'; left; simp
            · right; rw [put_ne _ hut]; exact h'
        · dsimp only
          by_cases hut : u = t
          · subst hut; simp [RegSt.registering] at hu
          · have hu' : σ.registering u x := by simpa [RegSt.registering, put_ne _ hut] using hu
            have : x ≠ s := by rintro rfl; exact hut (ih.uniq u t x hu' hreg)
            rw [put_ne _ this]; exact ih.busy u x hu'
        · by_cases hut : u = t
          · subst hut; simp [RegSt.registering] at hu
          · by_cases hut' : u' = t
            · subst hut'; simp [RegSt.registering] at hu'
            · exact ih.uniq u u' x (by simpa [RegSt.registering, put_ne _ hut] using hu)
                (by simpa [RegSt.registering, put_ne _ hut'] using hu')
      · rename_i s key hs
        simp only [RegSt.leave]
        have hp : ∀ s, σ.pc t ≠ .inserted s := by rw [hs]; simp
        split
        · exact idle t _ hp (fun _ _ h => h)
        · split
          · exact idle t _ hp (fun _ _ h => h)
          · split
            · refine idle t _ hp (fun u x hu => ?_)
              rw [Dict.get?_erase] at hu
              split at hu
              · cases hu
              · exact hu
            · exact idle t _ hp (fun _ _ h => h)

/-! ## Clients -/

theorem cache_run_append (σ : CacheSt) : ∀ (a b : List CacheEv),
    σ.run (a ++ b) = (((σ.run a).1.run b).1, (σ.run a).2 ++ ((σ.run a).1.run b).2)
  | [], b => by simp [CacheSt.run]
  | e :: a, b => by
    have := cache_run_append (σ.step e).1 a b
    simp only [List.cons_append, CacheSt.run, this, List.append_assoc]

theorem cache_run_snoc (σ : CacheSt) (a : List CacheEv) (e : CacheEv) :
    σ.run (a ++ [e]) = (((σ.run a).1.step e).1, (σ.run a).2 ++ ((σ.run a).1.step e).2) := by
  rw [cache_run_append]; simp [CacheSt.run]

theorem alive_quiet {os : List CacheOut} {o : CacheOut} (hn : ∀ t a c, o ≠ .began t a c) (hc : ∀ t c, o ≠ .closed t c)
    (hb : ∀ t a c e, o ≠ .broke t a c e) (t : Nat) (a : Bytes) (c : Nat) : Living (os ++ [o]) t a c ↔ Living os t a c := by
  have h1 : CacheOut.began t a c ≠ o := fun h => hn _ _ _ h.symm
  have h2 : ∀ t', CacheOut.closed t' c ≠ o := fun t' h => hc _ _ h.symm
  have h3 : ∀ t' a' e, CacheOut.broke t' a' c e ≠ o := fun t' a' e h => hb _ _ _ _ h.symm
  simp [Living, h1, h2, h3]

theorem alive_began {os : List CacheOut} {t0 : Nat} {a0 : Bytes} {c0 : Nat} (h1 : ∀ t, .closed t c0 ∉ os)
    (h2 : ∀ t a e, .broke t a c0 e ∉ os) (t : Nat) (a : Bytes) (c : Nat) :
    Living (os ++ [.began t0 a0 c0]) t a c ↔ Living os t a c ∨ (t = t0 ∧ a = a0 ∧ c = c0) := by
  constructor
  · rintro ⟨hb, hc, hd⟩
    rcases List.mem_append.1 hb with hb | hb
    · exact .inl ⟨hb, fun t' h => hc t' (List.mem_append_left _ h), fun t' a' e h => hd t' a' e (List.mem_append_left _ h)⟩
    · simp at hb; exact .inr hb
  · rintro (⟨hb, hc, hd⟩ | ⟨rfl, rfl, rfl⟩)
    · exact ⟨List.mem_append_left _ hb, by simpa using hc, by simpa using hd⟩
    · exact ⟨by simp, by simpa using h1, by simpa using h2⟩

theorem alive_broke {os : List CacheOut} (t0 : Nat) (a0 : Bytes) (c0 : Nat) (e : Exc) (t : Nat) (a : Bytes) (c : Nat) :
    Living (os ++ [.broke t0 a0 c0 e]) t a c ↔ Living os t a c ∧ c ≠ c0 := by
  constructor
  · rintro ⟨hb, hc, hd⟩
    refine ⟨⟨by simpa using hb, by simpa using hc, fun t' a' e h => hd t' a' e (List.mem_append_left _ h)⟩, ?_⟩
    rintro rfl; exact hd t0 a0 e (by simp)
  · rintro ⟨⟨hb, hc, hd⟩, hne⟩
    exact ⟨by simpa using hb, by simpa using hc, fun t' a' e' h => by
      rcases List.mem_append.1 h with h | h
      · exact hd _ _ _ h
      · simp at h; exact hne h.2.2.1⟩

theorem alive_closed {os : List CacheOut} (t0 c0 : Nat) (t : Nat) (a : Bytes) (c : Nat) :
    Living (os ++ [.closed t0 c0]) t a c ↔ Living os t a c ∧ c ≠ c0 := by
  constructor
  · rintro ⟨hb, hc, hd⟩
    refine ⟨⟨by simpa using hb, fun t' h => hc t' (List.mem_append_left _ h), by simpa using hd⟩, ?_⟩
    rintro rfl; exact hc t0 (by simp)
  · rintro ⟨⟨hb, hc, hd⟩, hne⟩
    exact ⟨by simpa using hb, fun t' h => by
      rcases List.mem_append.1 h with h | h
      · exact hc _ h
      · simp at h; exact hne h.2, by simpa using hd⟩

/-- The part of the invariant that needs no discipline. -/
structure CacheBase (σ : CacheSt) (os : List CacheOut) : Prop where
  wf : σ.cache.WF
  made : ∀ t a c, .began t a c ∈ os ↔ σ.made[c]? = some (t, a)
  closed : ∀ t c, .closed t c ∈ os → c < σ.made.length
  broke : ∀ t a c e, .broke t a c e ∈ os → c < σ.made.length
  building : ∀ t c, c ∈ σ.building t → ∃ a, σ.made[c]? = some (t, a)
  nodup : ∀ t, (σ.building t).Nodup
  cached : ∀ t a c, σ.cache.get? (t, a) = some c → σ.made[c]? = some (t, a)
  got : ∀ t a c, .got t a c ∈ os → σ.made[c]? = some (t, a)

theorem cacheBase_new {σ : CacheSt} {os : List CacheOut} (ih : CacheBase σ os) (t : Nat) (a : Bytes) :
    CacheBase (σ.new t a).1 (os ++ (σ.new t a).2) := by
  simp only [CacheSt.new]
  split
  · exact ⟨ih.wf, by simpa using ih.made, by simpa using ih.closed, by simpa using ih.broke, ih.building, ih.nodup, ih.cached,
      by simpa using ih.got⟩
  · have hlt : ∀ {c : Nat} {x : Nat × Bytes}, σ.made[c]? = some x → c < σ.made.length := by
      intro c x h
      exact (List.getElem?_eq_some_iff.1 h).1
    have hup : ∀ {c : Nat} {x : Nat × Bytes}, σ.made[c]? = some x → (σ.made ++ [(t, a)])[c]? = some x := by
      intro c x h
      rw [List.getElem?_append_left (hlt h)]; exact h
    refine ⟨Dict.wf_set ih.wf _ _, ?_, ?_, ?_, ?_, ?_, ?_, ?_⟩
    · intro t' a' c'
      simp only [List.mem_append, List.mem_singleton, ih.made]
      constructor
      · rintro (h | h)
        · exact hup h
        · cases h; simp
      · intro h
        by_cases hc : c' < σ.made.length
        · left; rwa [List.getElem?_append_left hc] at h
        · have : c' < (σ.made ++ [(t, a)]).length := (List.getElem?_eq_some_iff.1 h).1
          simp at this
          have : c' = σ.made.length := by omega
          subst this
          simp at h; right; simp [h]
    · intro t' c' h
      simp at h ⊢
      have := ih.closed t' c' h; omega
    · intro t' a' c' e h
      simp at h ⊢
      have := ih.broke t' a' c' e h; omega
    · intro t' c' h
      dsimp only at h ⊢
      by_cases htt : t' = t
      · subst htt
        rw [put_self] at h
        rcases List.mem_cons.1 h with h | h
        · subst h; exact ⟨a, by simp⟩
        · obtain ⟨a', ha'⟩ := ih.building _ _ h
          exact ⟨a', hup ha'⟩
      · rw [put_ne _ htt] at h
        obtain ⟨a', ha'⟩ := ih.building _ _ h
        exact ⟨a', hup ha'⟩
    · intro t'
      dsimp only
      by_cases htt : t' = t
      · subst htt
        rw [put_self, List.nodup_cons]
        refine ⟨fun h => ?_, ih.nodup _⟩
        obtain ⟨a', ha'⟩ := ih.building _ _ h
        exact Nat.lt_irrefl _ (hlt ha')
      · rw [put_ne _ htt]; exact ih.nodup _
    · intro t' a' c' h
      dsimp only at h ⊢
      rw [Dict.get?_set] at h
      split at h
      · rename_i hk; cases hk; cases h; simp
      · exact hup (ih.cached _ _ _ h)
    · intro t' a' c' h
      simp at h
      exact hup (ih.got _ _ _ h)

theorem cacheBase_step {σ : CacheSt} {os : List CacheOut} (ih : CacheBase σ os) (e : CacheEv) :
    CacheBase (σ.step e).1 (os ++ (σ.step e).2) := by
  have quiet : CacheBase σ (os ++ []) := by simpa using ih
  have er : ∀ (k : Nat × Bytes) (t : Nat) (a : Bytes) (c : Nat), (σ.cache.erase k).get? (t, a) = some c →
      σ.made[c]? = some (t, a) := by
    intro k t a c h
    rw [Dict.get?_erase] at h
    split at h
    · cases h
    · exact ih.cached _ _ _ h
  have pop : ∀ (t c : Nat) (r : List Nat), σ.building t = c :: r →
      (∀ t' c', c' ∈ put σ.building t r t' → ∃ a, σ.made[c']? = some (t', a)) ∧ ∀ t', (put σ.building t r t').Nodup := by
    intro t c r h
    refine ⟨fun t' c' h' => ?_, fun t' => ?_⟩
    · by_cases htt : t' = t
      · subst htt
        rw [put_self] at h'
        exact ih.building _ _ (by rw [h]; exact List.mem_cons_of_mem _ h')
      · rw [put_ne _ htt] at h'; exact ih.building _ _ h'
    · by_cases htt : t' = t
      · subst htt
        rw [put_self]
        have := ih.nodup t'; rw [h] at this; exact (List.nodup_cons.1 this).2
      · rw [put_ne _ htt]; exact ih.nodup _
  cases e with
  | get t a =>
    simp only [CacheSt.step]
    split
    · rename_i c hc
      exact ⟨ih.wf, by simpa using ih.made, by simpa using ih.closed, by simpa using ih.broke, ih.building, ih.nodup, ih.cached,
        by
          intro t' a' c' h
          simp at h
          rcases h with h | ⟨rfl, rfl, rfl⟩
          · exact ih.got _ _ _ h
          · exact ih.cached _ _ _ hc⟩
    · exact cacheBase_new ih t a
  | new t a => exact cacheBase_new ih t a
  | connected t =>
    simp only [CacheSt.step]
    split
    · exact quiet
    · rename_i c r hb
      split
      · rename_i x t1 a hm
        obtain ⟨p1, p2⟩ := pop t c r hb
        refine ⟨ih.wf, by simpa using ih.made, by simpa using ih.closed, by simpa using ih.broke, p1, p2, ih.cached, ?_⟩
        intro t' a' c' h
        simp at h
        rcases h with h | ⟨rfl, rfl, rfl⟩
        · exact ih.got _ _ _ h
        · obtain ⟨a2, h2⟩ := ih.building t' c' (by rw [hb]; simp)
          rw [h2] at hm; cases hm; exact h2
      · exact quiet
  | failed t e =>
    simp only [CacheSt.step]
    split
    · exact quiet
    · rename_i c r hb
      split
      · rename_i x t1 a hm
        obtain ⟨p1, p2⟩ := pop t c r hb
        refine ⟨Dict.wf_erase ih.wf _, by simpa using ih.made, by simpa using ih.closed, ?_, p1, p2, er _,
          by simpa using ih.got⟩
        intro t' a' c' e' h
        simp at h
        rcases h with h | ⟨rfl, rfl, rfl, rfl⟩
        · exact ih.broke _ _ _ _ h
        · exact (List.getElem?_eq_some_iff.1 hm).1
      · exact quiet
  | close t c =>
    simp only [CacheSt.step]
    split
    · rename_i x t1 a hm
      refine ⟨Dict.wf_erase ih.wf _, by simpa using ih.made, ?_, by simpa using ih.broke, ih.building, ih.nodup, er _,
        by simpa using ih.got⟩
      intro t' c' h
      simp at h
      rcases h with h | ⟨rfl, rfl⟩
      · exact ih.closed _ _ h
      · exact (List.getElem?_eq_some_iff.1 hm).1
    · exact quiet

theorem cacheBase_run (es : List CacheEv) : CacheBase (CacheSt.run {} es).1 (CacheSt.run {} es).2 := by
  induction es using snoc_induction with
  | h0 => constructor <;> simp [CacheSt.run, Dict.WF]
  | hs es e ih => rw [cache_run_snoc]; exact cacheBase_step ih e

theorem Orderly.prefix {a b : List CacheEv} (h : Orderly (a ++ b)) : Orderly a :=
  fun pre t c post he => h pre t c (post ++ b) (by rw [he]; simp)

/-- In an orderly history the cache holds exactly the clients alive. -/
theorem cacheInv_run (es : List CacheEv) (ho : Orderly es) :
    (∀ t a c, (CacheSt.run {} es).1.cache.get? (t, a) = some c ↔ Living (CacheSt.run {} es).2 t a c) ∧
    ∀ t c, c ∈ (CacheSt.run {} es).1.building t → ∃ a, Living (CacheSt.run {} es).2 t a c := by
  induction es using snoc_induction with
  | h0 => simp [CacheSt.run, Living]
  | hs es e ih =>
    obtain ⟨ih, ihb⟩ := ih ho.prefix
    have hb := cacheBase_run es
    have hcl : ∀ t c, e = .close t c → (∃ a, Living (CacheSt.run {} es).2 t a c) ∧ c ∉ (CacheSt.run {} es).1.building t :=
      fun t c he => ho es t c [] (by rw [he])
    rw [cache_run_snoc]
    generalize CacheSt.run {} es = r at ih ihb hb hcl ⊢
    obtain ⟨σ, os⟩ := r
    dsimp only at ih ihb hb hcl ⊢
    have quiet : (∀ t a c, σ.cache.get? (t, a) = some c ↔ Living (os ++ []) t a c) ∧
        ∀ t c, c ∈ σ.building t → ∃ a, Living (os ++ []) t a c := by simpa using ⟨ih, ihb⟩
    have hgot : ∀ t0 a0 c0 (t : Nat) (a : Bytes) (c : Nat), Living (os ++ [.got t0 a0 c0]) t a c ↔ Living os t a c := by
      intro t0 a0 c0
      exact alive_quiet (by simp) (by simp) (by simp)
    have new : ∀ t a, (∀ t' a' c, (σ.new t a).1.cache.get? (t', a') = some c ↔ Living (os ++ (σ.new t a).2) t' a' c) ∧
        ∀ t' c, c ∈ (σ.new t a).1.building t' → ∃ a', Living (os ++ (σ.new t a).2) t' a' c := by
      intro t a
      simp only [CacheSt.new]
      split
      · have hr : ∀ (t' : Nat) (a' : Bytes) (c : Nat), Living (os ++ [.refused t a .keyError]) t' a' c ↔ Living os t' a' c :=
          alive_quiet (by simp) (by simp) (by simp)
        simp only [hr]; exact ⟨ih, ihb⟩
      · rename_i hn
        have hn : σ.cache.get? (t, a) = none := by simpa [Dict.has] using hn
        have hal : ∀ (t' : Nat) (a' : Bytes) (c : Nat), Living (os ++ [.began t a σ.made.length]) t' a' c ↔
            Living os t' a' c ∨ (t' = t ∧ a' = a ∧ c = σ.made.length) :=
          alive_began (fun t' h => Nat.lt_irrefl _ (hb.closed _ _ h)) (fun t' a' e h => Nat.lt_irrefl _ (hb.broke _ _ _ _ h))
        simp only [hal]
        refine ⟨fun t' a' c => ?_, fun t' c h => ?_⟩
        · rw [Dict.get?_set, ← ih]
          split
          · rename_i hk; cases hk
            rw [hn]; simp; exact eq_comm
          · rename_i hk
            constructor
            · exact .inl
            · rintro (h | ⟨rfl, rfl, _⟩)
              · exact h
              · exact absurd rfl hk
        · by_cases htt : t' = t
          · subst htt
            rw [put_self] at h
            rcases List.mem_cons.1 h with h | h
            · exact ⟨a, .inr ⟨rfl, rfl, h⟩⟩
            · obtain ⟨a', ha'⟩ := ihb _ _ h
              exact ⟨a', .inl ha'⟩
          · rw [put_ne _ htt] at h
            obtain ⟨a', ha'⟩ := ihb _ _ h
            exact ⟨a', .inl ha'⟩
    have del : ∀ t a c0, Living os t a c0 → ∀ t' a' c, (σ.cache.erase (t, a)).get? (t', a') = some c ↔
        Living os t' a' c ∧ c ≠ c0 := by
      intro t a c0 h0 t' a' c
      rw [Dict.get?_erase, ← ih]
      have h0' := (ih _ _ _).2 h0
      split
      · rename_i hk; cases hk
        rw [h0']; simp; intro h; exact h.symm
      · rename_i hk
        refine ⟨fun h => ⟨h, ?_⟩, fun h => h.1⟩
        rintro rfl
        have h1 := hb.cached _ _ _ h
        rw [hb.cached _ _ _ h0'] at h1
        cases h1; exact hk rfl
    cases e with
    | get t a =>
      simp only [CacheSt.step]
      split
      · simp only [hgot]; exact ⟨ih, ihb⟩
      · exact new t a
    | new t a => exact new t a
    | connected t =>
      simp only [CacheSt.step]
      split
      · exact quiet
      · rename_i c r hbd
        split
        · simp only [hgot]
          refine ⟨ih, fun t' c' h => ?_⟩
          by_cases htt : t' = t
          · subst htt
            rw [put_self] at h
            exact ihb _ _ (by rw [hbd]; exact List.mem_cons_of_mem _ h)
          · rw [put_ne _ htt] at h; exact ihb _ _ h
        · exact quiet
    | failed t e =>
      simp only [CacheSt.step]
      split
      · exact quiet
      · rename_i c r hbd
        split
        · rename_i x t1 a hm
          have hal : Living os t a c := by
            obtain ⟨a1, h1⟩ := ihb t c (by rw [hbd]; simp)
            have := (hb.made _ _ _).1 h1.1
            rw [hm] at this; cases this; exact h1
          simp only [alive_broke]
          refine ⟨del t a c hal, fun t' c' h => ?_⟩
          have hne : c' ≠ c ∧ c' ∈ σ.building t' := by
            by_cases htt : t' = t
            · subst htt
              rw [put_self] at h
              have := hb.nodup t'; rw [hbd] at this
              rw [hbd]
              exact ⟨fun h' => (List.nodup_cons.1 this).1 (h' ▸ h), List.mem_cons_of_mem _ h⟩
            · rw [put_ne _ htt] at h
              refine ⟨?_, h⟩
              rintro rfl
              obtain ⟨a2, h2⟩ := hb.building _ _ h
              obtain ⟨a3, h3⟩ := hb.building t c' (by rw [hbd]; simp)
              rw [h2] at h3; cases h3; exact htt rfl
          obtain ⟨a', ha'⟩ := ihb _ _ hne.2
          exact ⟨a', ha', hne.1⟩
        · exact quiet
    | close t c =>
      simp only [CacheSt.step]
      obtain ⟨⟨a1, h1⟩, hnb⟩ := hcl t c rfl
      have hm1 := (hb.made _ _ _).1 h1.1
      rw [hm1]
      dsimp only
      simp only [alive_closed]
      refine ⟨del t a1 c h1, fun t' c' h => ?_⟩
      obtain ⟨a', ha'⟩ := ihb _ _ h
      refine ⟨a', ha', ?_⟩
      rintro rfl
      have := (hb.made _ _ _).1 ha'.1
      rw [hm1] at this; cases this
      exact hnb h

end Verif
