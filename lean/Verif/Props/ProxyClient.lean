import Verif.Model.ProxyClient
import Verif.Props.Registry
/-!
# C116: the client a proxy uses

`_client()` (proxy.py:149-153) asks `get_client` when the proxy is used for the first time and keeps the answer.
-/
namespace Verif

/-- What was observed of clients. -/
def cacheOuts (os : List HoldOut) : List CacheOut := os.filterMap fun | .cache o => some o | _ => none

theorem cacheOuts_append (a b : List HoldOut) : cacheOuts (a ++ b) = cacheOuts a ++ cacheOuts b := List.filterMap_append

theorem cacheOuts_map (os : List CacheOut) : cacheOuts (os.map .cache) = os := by
  induction os with
  | nil => rfl
  | cons o os ih => simp [cacheOuts] at ih ⊢; exact ih

/-- What an event does to the clients: a first use of a proxy calls `get_client`. -/
def HoldSt.did (σ : HoldSt) : HoldEv → List CacheEv
  | .use t p =>
    match σ.addrs[p]? with
    | some a => if σ.free t ∧ σ.held p = none then [.get t a] else []
    | none => []
  | .cache e => if σ.free e.thread then [e] else []
  | _ => []

/-- What a history does to the clients. -/
def HoldSt.trace (σ : HoldSt) : List HoldEv → List CacheEv
  | [] => []
  | e :: es => σ.did e ++ (σ.step e).1.trace es

theorem hold_run_append (σ : HoldSt) : ∀ (a b : List HoldEv),
    σ.run (a ++ b) = (((σ.run a).1.run b).1, (σ.run a).2 ++ ((σ.run a).1.run b).2)
  | [], b => rfl
  | e :: a, b => by simp only [List.cons_append, HoldSt.run, hold_run_append (σ.step e).1 a b, List.append_assoc]

theorem hold_run_snoc (σ : HoldSt) (a : List HoldEv) (e : HoldEv) :
    σ.run (a ++ [e]) = (((σ.run a).1.step e).1, (σ.run a).2 ++ ((σ.run a).1.step e).2) := by
  rw [hold_run_append]; simp [HoldSt.run]

theorem ended_clients (σ : HoldSt) (o : CacheOut) : (σ.ended o).1.clients = σ.clients ∧ cacheOuts (σ.ended o).2 = [] ∧
    (σ.ended o).1.addrs = σ.addrs ∧ (σ.ended o).1.held = σ.held := by
  unfold HoldSt.ended
  repeat' split
  all_goals exact ⟨rfl, rfl, rfl, rfl⟩

/-- The clients change as in `Verif.Model.Registry`. -/
theorem hold_clients_step (σ : HoldSt) (e : HoldEv) :
    (σ.step e).1.clients = (σ.clients.run (σ.did e)).1 ∧ cacheOuts (σ.step e).2 = (σ.clients.run (σ.did e)).2 := by
  cases e with
  | make a => exact ⟨rfl, rfl⟩
  | go t =>
    simp only [HoldSt.step, HoldSt.did, CacheSt.run]
    repeat' split
    all_goals exact ⟨rfl, rfl⟩
  | use t p =>
    simp only [HoldSt.step, HoldSt.did]
    cases ha : σ.addrs[p]? with
    | none => exact ⟨rfl, rfl⟩
    | some a =>
      dsimp only
      cases hf : σ.free t with
      | false => exact ⟨rfl, rfl⟩
      | true =>
        simp only [true_and, if_true, HoldSt.use]
        cases hh : σ.held p with
        | some c => exact ⟨rfl, rfl⟩
        | none =>
          simp only [if_true, CacheSt.run]
          split <;> rename_i h <;> rw [h]
          · exact ⟨rfl, rfl⟩
          · exact ⟨rfl, rfl⟩
          · exact ⟨rfl, by rw [cacheOuts_map]; simp⟩
  | cache e =>
    simp only [HoldSt.step, HoldSt.did]
    cases hf : σ.free e.thread with
    | false => exact ⟨rfl, rfl⟩
    | true =>
      simp only [if_true, CacheSt.run, List.append_nil]
      generalize σ.clients.step e = r
      obtain ⟨cs, os⟩ := r
      dsimp only
      split
      · rename_i o
        have := ended_clients { σ with clients := cs } o
        generalize HoldSt.ended _ _ = x at this
        exact ⟨this.1, by show o :: cacheOuts x.2 = _; rw [this.2.1]⟩
      · rename_i o
        have := ended_clients { σ with clients := cs } o
        generalize HoldSt.ended _ _ = x at this
        exact ⟨this.1, by show o :: cacheOuts x.2 = _; rw [this.2.1]⟩
      · exact ⟨rfl, cacheOuts_map os⟩

theorem hold_clients (es : List HoldEv) : ∀ σ : HoldSt,
    (σ.run es).1.clients = (σ.clients.run (σ.trace es)).1 ∧ cacheOuts (σ.run es).2 = (σ.clients.run (σ.trace es)).2 := by
  induction es with
  | nil => intro σ; exact ⟨rfl, rfl⟩
  | cons e es ih =>
    intro σ
    obtain ⟨h1, h2⟩ := hold_clients_step σ e
    obtain ⟨i1, i2⟩ := ih (σ.step e).1
    simp only [HoldSt.run, HoldSt.trace, cache_run_append, cacheOuts_append]
    rw [i1, i2, h1, h2]
    exact ⟨rfl, rfl⟩

theorem made_mono (σ : CacheSt) (e : CacheEv) {c : Nat} {x : Nat × Bytes} (h : σ.made[c]? = some x) : (σ.step e).1.made[c]? = some x := by
  have hn : ∀ t a, (σ.new t a).1.made[c]? = some x := by
    intro t a
    simp only [CacheSt.new]
    split
    · exact h
    · obtain ⟨hc, hx⟩ := List.getElem?_eq_some_iff.1 h
      simp only []
      rw [List.getElem?_append_left hc, h]
  cases e <;> simp only [CacheSt.step] <;> repeat' split
  all_goals first
    | exact h
    | exact hn _ _

/-- Client `c` was made by thread `t` for the server of proxy `p`, which the thread used. -/
def HoldSt.Fits (σ : HoldSt) (es : List HoldEv) (t p c : Nat) : Prop := ∃ a, σ.clients.made[c]? = some (t, a) ∧ σ.addrs[p]? = some a ∧ .use t p ∈ es

/-- What is true in all histories. -/
structure HoldInv (σ : HoldSt) (es : List HoldEv) : Prop where
  base : ∃ os, CacheBase σ.clients os
  held : ∀ p c, σ.held p = some c → ∃ t, σ.Fits es t p c
  wait : ∀ t p c, .waiting p c ∈ σ.pc t → σ.Fits es t p c
  got : ∀ t p c, .got p c ∈ σ.pc t → σ.Fits es t p c
  ret : ∀ t p, .returning p ∈ σ.pc t → σ.held p ≠ none ∧ .use t p ∈ es

theorem mem_put {β : Type} {f : Nat → List β} {t t' : Nat} {l : List β} {x : β} (h : x ∈ put f t l t') : (t' = t ∧ x ∈ l) ∨ (t' ≠ t ∧ x ∈ f t') := by
  by_cases ht : t' = t
  · subst ht; rw [put_self] at h; exact .inl ⟨rfl, h⟩
  · rw [put_ne _ ht] at h; exact .inr ⟨ht, h⟩

theorem holdInv_step {σ : HoldSt} {es : List HoldEv} (inv : HoldInv σ es) (e : HoldEv) : HoldInv (σ.step e).1 (es ++ [e]) := by
  obtain ⟨⟨os, ib⟩, ih, iw, ig, ir⟩ := inv
  have hmono : ∀ {c : Nat} {x}, σ.clients.made[c]? = some x → (σ.step e).1.clients.made[c]? = some x := by
    intro c x hx
    rw [(hold_clients_step _ e).1]
    generalize σ.did e = l
    generalize σ.clients = κ at hx
    clear ib ih iw ig ir
    induction l generalizing κ with
    | nil => exact hx
    | cons e l ihl => exact ihl _ (made_mono κ e hx)
  have hbase : ∃ os, CacheBase (σ.step e).1.clients os := by
    rw [(hold_clients_step _ e).1]
    generalize σ.did e = l
    generalize σ.clients = κ at ib
    clear ih iw ig ir hmono
    induction l generalizing κ os with
    | nil => exact ⟨os, ib⟩
    | cons e l ihl => exact ihl _ _ (cacheBase_step ib e)
  have hin : ∀ {x}, x ∈ es → x ∈ es ++ [e] := fun h => List.mem_append.2 (.inl h)
  have fits : (∀ (p : Nat) (a : Bytes), σ.addrs[p]? = some a → (σ.step e).1.addrs[p]? = some a) → ∀ {t p c}, σ.Fits es t p c → (σ.step e).1.Fits (es ++ [e]) t p c := by
    rintro ha t p c ⟨a, h1, h2, h3⟩
    exact ⟨a, hmono h1, ha _ _ h2, hin h3⟩
  cases e with
  | make a =>
    have F := @fits (fun p a h => by
      obtain ⟨hp, -⟩ := List.getElem?_eq_some_iff.1 h
      show (σ.addrs ++ _)[p]? = _
      rw [List.getElem?_append_left hp, h])
    exact ⟨hbase, fun p c h => (ih p c h).imp fun t h => F h, fun t p c h => F (iw t p c h), fun t p c h => F (ig t p c h), fun t p h => ⟨(ir t p h).1, hin (ir t p h).2⟩⟩
  | go t =>
    simp only [HoldSt.step] at hbase hmono fits ⊢
    split
    · rename_i p c r hpc
      simp only [hpc] at hbase hmono fits
      have F := @fits (fun p a h => h)
      have hg := ig t p c (by rw [hpc]; simp)
      refine ⟨hbase, fun p' c' h => ?_, fun t' p' c' h => ?_, fun t' p' c' h => ?_, fun t' p' h => ?_⟩
      · by_cases hp : p' = p
        · subst hp
          have h : put σ.held p' (some c) p' = some c' := h
          rw [put_self] at h; cases h; exact ⟨t, F hg⟩
        · have h : put σ.held p (some c) p' = some c' := h
          rw [put_ne _ hp] at h; exact (ih _ _ h).imp fun t h => F h
      · rcases mem_put h with ⟨rfl, h⟩ | ⟨-, h⟩
        · exact F (iw t' p' c' (by rw [hpc]; simp at h; simp [h]))
        · exact F (iw _ _ _ h)
      · rcases mem_put h with ⟨rfl, h⟩ | ⟨-, h⟩
        · exact F (ig t' p' c' (by rw [hpc]; simp at h; simp [h]))
        · exact F (ig _ _ _ h)
      · have hh : ∀ q, σ.held q ≠ none → put σ.held p (some c) q ≠ none := by
          intro q hq
          by_cases hp : q = p
          · subst hp; simp
          · rw [put_ne _ hp]; exact hq
        rcases mem_put h with ⟨rfl, h⟩ | ⟨-, h⟩
        · simp at h
          rcases h with rfl | h
          · obtain ⟨a, -, -, hu⟩ := hg
            exact ⟨by simp, hin hu⟩
          · have := ir t' p' (by rw [hpc]; simp [h])
            exact ⟨hh _ this.1, hin this.2⟩
        · have := ir _ _ h
          exact ⟨hh _ this.1, hin this.2⟩
    · rename_i p r hpc
      split
      · rename_i c hc
        simp only [hpc, hc] at hbase hmono fits
        have F := @fits (fun p a h => h)
        refine ⟨hbase, fun p' c' h => (ih p' c' h).imp fun t h => F h, fun t' p' c' h => ?_, fun t' p' c' h => ?_, fun t' p' h => ?_⟩
        · rcases mem_put h with ⟨rfl, h2⟩ | ⟨-, h⟩
          · exact F (iw t' p' c' (by rw [hpc]; exact List.mem_cons_of_mem _ h2))
          · exact F (iw _ _ _ h)
        · rcases mem_put h with ⟨rfl, h2⟩ | ⟨-, h⟩
          · exact F (ig t' p' c' (by rw [hpc]; exact List.mem_cons_of_mem _ h2))
          · exact F (ig _ _ _ h)
        · rcases mem_put h with ⟨rfl, h2⟩ | ⟨-, h⟩
          · have := ir t' p' (by rw [hpc]; exact List.mem_cons_of_mem _ h2)
            exact ⟨this.1, hin this.2⟩
          · exact ⟨(ir _ _ h).1, hin (ir _ _ h).2⟩
      · rename_i hc
        simp only [hpc, hc] at hbase hmono fits
        have F := @fits (fun p a h => h)
        exact ⟨hbase, fun p c h => (ih p c h).imp fun t h => F h, fun t p c h => F (iw t p c h), fun t p c h => F (ig t p c h), fun t p h => ⟨(ir t p h).1, hin (ir t p h).2⟩⟩
    · have F : ∀ {t' p c}, σ.Fits es t' p c → σ.Fits (es ++ [.go t]) t' p c := fun ⟨a, h1, h2, h3⟩ => ⟨a, h1, h2, hin h3⟩
      exact ⟨⟨os, ib⟩, fun p c h => (ih p c h).imp fun t h => F h, fun t p c h => F (iw t p c h), fun t p c h => F (ig t p c h), fun t p h => ⟨(ir t p h).1, hin (ir t p h).2⟩⟩
  | use t p =>
    have stay : HoldInv σ (es ++ [.use t p]) := by
      have F : ∀ {t' p' c}, σ.Fits es t' p' c → σ.Fits (es ++ [.use t p]) t' p' c := fun ⟨a, h1, h2, h3⟩ => ⟨a, h1, h2, hin h3⟩
      exact ⟨⟨os, ib⟩, fun p c h => (ih p c h).imp fun t h => F h, fun t p c h => F (iw t p c h), fun t p c h => F (ig t p c h), fun t p h => ⟨(ir t p h).1, hin (ir t p h).2⟩⟩
    simp only [HoldSt.step] at hbase hmono fits ⊢
    cases ha : σ.addrs[p]? with
    | none => exact stay
    | some a =>
      simp only [ha] at hbase hmono fits ⊢
      cases hf : σ.free t with
      | false => exact stay
      | true =>
        have hu : .use t p ∈ es ++ [.use t p] := by simp
        simp only [hf, if_true, HoldSt.use] at hbase hmono fits ⊢
        cases hh : σ.held p with
        | some c =>
          simp only [hh] at hbase hmono fits ⊢
          have F := @fits (fun p a h => h)
          refine ⟨hbase, fun p' c' h => (ih p' c' h).imp fun t h => F h, fun t' p' c' h => ?_, fun t' p' c' h => ?_, fun t' p' h => ?_⟩
          · rcases mem_put h with ⟨rfl, h⟩ | ⟨-, h⟩
            · simp at h; exact F (iw _ _ _ h)
            · exact F (iw _ _ _ h)
          · rcases mem_put h with ⟨rfl, h⟩ | ⟨-, h⟩
            · simp at h; exact F (ig _ _ _ h)
            · exact F (ig _ _ _ h)
          · rcases mem_put h with ⟨rfl, h⟩ | ⟨-, h⟩
            · simp at h
              rcases h with rfl | h
              · exact ⟨by rw [hh]; simp, hu⟩
              · exact ⟨(ir _ _ h).1, hin (ir _ _ h).2⟩
            · exact ⟨(ir _ _ h).1, hin (ir _ _ h).2⟩
        | none =>
          simp only [hh, CacheSt.step] at hbase hmono fits ⊢
          cases hc : σ.clients.cache.get? (t, a) with
          | some c =>
            simp only [hc] at hbase hmono fits ⊢
            have F := @fits (fun p a h => h)
            have hm := ib.cached _ _ _ hc
            refine ⟨hbase, fun p' c' h => (ih p' c' h).imp fun t h => F h, fun t' p' c' h => ?_, fun t' p' c' h => ?_, fun t' p' h => ?_⟩
            · rcases mem_put h with ⟨rfl, h⟩ | ⟨-, h⟩
              · simp at h; exact F (iw _ _ _ h)
              · exact F (iw _ _ _ h)
            · rcases mem_put h with ⟨rfl, h⟩ | ⟨-, h⟩
              · simp at h
                rcases h with ⟨rfl, rfl⟩ | h
                · exact ⟨a, hm, ha, hu⟩
                · exact F (ig _ _ _ h)
              · exact F (ig _ _ _ h)
            · rcases mem_put h with ⟨rfl, h⟩ | ⟨-, h⟩
              · simp at h; exact ⟨(ir _ _ h).1, hin (ir _ _ h).2⟩
              · exact ⟨(ir _ _ h).1, hin (ir _ _ h).2⟩
          | none =>
            simp only [hc, CacheSt.new, Dict.has, Option.isSome_none, Bool.false_eq_true, if_false] at hbase hmono fits ⊢
            have F := @fits (fun p a h => h)
            refine ⟨hbase, fun p' c' h => (ih p' c' h).imp fun t h => F h, fun t' p' c' h => ?_, fun t' p' c' h => ?_, fun t' p' h => ?_⟩
            · rcases mem_put h with ⟨rfl, h⟩ | ⟨-, h⟩
              · simp at h
                rcases h with ⟨rfl, rfl⟩ | h
                · exact ⟨a, by simp, ha, hu⟩
                · exact F (iw _ _ _ h)
              · exact F (iw _ _ _ h)
            · rcases mem_put h with ⟨rfl, h⟩ | ⟨-, h⟩
              · simp at h; exact F (ig _ _ _ h)
              · exact F (ig _ _ _ h)
            · rcases mem_put h with ⟨rfl, h⟩ | ⟨-, h⟩
              · simp at h; exact ⟨(ir _ _ h).1, hin (ir _ _ h).2⟩
              · exact ⟨(ir _ _ h).1, hin (ir _ _ h).2⟩
  | cache e =>
    have hsplit : (σ.step (.cache e)).1.addrs = σ.addrs ∧ (σ.step (.cache e)).1.held = σ.held ∧
        ∀ t f, f ∈ (σ.step (.cache e)).1.pc t → f ∈ σ.pc t ∨ ∃ p c, f = .got p c ∧ .waiting p c ∈ σ.pc t := by
      have hend : ∀ (cs : CacheSt) (o : CacheOut) (t : Nat) (f : HoldPc), f ∈ (HoldSt.ended { σ with clients := cs } o).1.pc t → f ∈ σ.pc t ∨ ∃ p c, f = .got p c ∧ .waiting p c ∈ σ.pc t := by
        intro cs o t f hf
        unfold HoldSt.ended at hf
        split at hf
        · rename_i t0 a0 c0
          split at hf
          · rename_i p0 c1 r0 hp0
            split at hf
            · rename_i hc; subst hc
              rcases mem_put hf with ⟨rfl, h⟩ | ⟨-, h⟩
              · have hp0 : σ.pc t = _ := hp0
                simp at h
                rcases h with rfl | h
                · exact .inr ⟨p0, c1, rfl, by rw [hp0]; simp⟩
                · exact .inl (by rw [hp0]; simp [h])
              · exact .inl h
            · exact .inl hf
          · exact .inl hf
        · rename_i t0 a0 c0 e0
          split at hf
          · rename_i p0 c1 r0 hp0
            split at hf
            · rcases mem_put hf with ⟨rfl, h⟩ | ⟨-, h⟩
              · have hp0 : σ.pc t = _ := hp0
                exact .inl (by rw [hp0]; simp [h])
              · exact .inl h
            · exact .inl hf
          · exact .inl hf
        · exact .inl hf
      simp only [HoldSt.step]
      split
      · generalize σ.clients.step e = x
        obtain ⟨cs, os'⟩ := x
        dsimp only
        split
        · exact ⟨(ended_clients _ _).2.2.1, (ended_clients _ _).2.2.2, fun t f => hend _ _ t f⟩
        · exact ⟨(ended_clients _ _).2.2.1, (ended_clients _ _).2.2.2, fun t f => hend _ _ t f⟩
        · exact ⟨rfl, rfl, fun t f h => .inl h⟩
      · exact ⟨rfl, rfl, fun t f h => .inl h⟩
    obtain ⟨h1, h2, h3⟩ := hsplit
    have F := @fits (fun p a h => by rw [h1]; exact h)
    refine ⟨hbase, fun p c h => ?_, fun t p c h => ?_, fun t p c h => ?_, fun t p h => ?_⟩
    · rw [h2] at h; exact (ih p c h).imp fun t h => F h
    · rcases h3 _ _ h with h | ⟨_, _, h, _⟩
      · exact F (iw _ _ _ h)
      · cases h
    · rcases h3 _ _ h with h | ⟨_, _, h, h'⟩
      · exact F (ig _ _ _ h)
      · cases h; exact F (iw _ _ _ h')
    · rcases h3 _ _ h with h | ⟨_, _, h, _⟩
      · rw [h2]; exact ⟨(ir _ _ h).1, hin (ir _ _ h).2⟩
      · cases h

theorem holdInv_run (es : List HoldEv) : HoldInv (HoldSt.run {} es).1 es := by
  induction es using snoc_induction with
  | h0 => exact ⟨⟨[], cacheBase_run []⟩, by simp [HoldSt.run], by simp [HoldSt.run], by simp [HoldSt.run], by simp [HoldSt.run]⟩
  | hs es e ih =>
    rw [hold_run_snoc]
    exact holdInv_step ih e

/-- The addresses proxies were made for, in order. -/
def proxyAddrs (es : List HoldEv) : List Bytes := es.filterMap fun | .make a => some a | _ => none

theorem hold_addrs (es : List HoldEv) : (HoldSt.run {} es).1.addrs = proxyAddrs es := by
  induction es using snoc_induction with
  | h0 => rfl
  | hs es e ih =>
    rw [hold_run_snoc, proxyAddrs, List.filterMap_append, ← proxyAddrs, ← ih]
    generalize (HoldSt.run {} es).1 = σ
    cases e with
    | make a => rfl
    | go t => simp only [HoldSt.step]; repeat' split
              all_goals simp
    | use t p =>
      simp only [HoldSt.step, HoldSt.use]
      repeat' split
      all_goals simp
    | cache e =>
      simp only [HoldSt.step]
      repeat' split
      all_goals first
        | (simp; done)
        | (rename_i o _ _; simpa using (ended_clients _ _).2.2.1)
        | simpa using (ended_clients _ _).2.2.1

theorem uses_go {σ : HoldSt} {e : HoldEv} {t p c : Nat} (h : .uses t p c ∈ (σ.step e).2) : e = .go t ∧ σ.held p = some c ∧ .returning p ∈ σ.pc t ∧ (σ.step e).1.clients = σ.clients := by
  cases e with
  | make a => simp [HoldSt.step] at h
  | use t' p' =>
    simp only [HoldSt.step, HoldSt.use] at h
    repeat' split at h
    all_goals simp at h
  | go t' =>
    simp only [HoldSt.step] at h ⊢
    split at h
    · simp at h
    · rename_i p' r hpc
      split at h
      · rename_i c' hc
        simp at h
        obtain ⟨rfl, rfl, rfl⟩ := h
        simp [hpc, hc]
      · simp at h
    · simp at h
  | cache e =>
    have hend : ∀ σ' o, .uses t p c ∉ (HoldSt.ended σ' o).2 := by
      intro σ' o h
      unfold HoldSt.ended at h
      repeat' split at h
      all_goals simp at h
    simp only [HoldSt.step] at h
    split at h
    · generalize σ.clients.step e = x at h
      obtain ⟨cs, os⟩ := x
      dsimp only at h
      split at h
      · simp at h; exact absurd h (hend _ _)
      · simp at h; exact absurd h (hend _ _)
      · simp at h
    · simp at h

/-- **C116** In all histories: the client a proxy uses was made for the proxy's server, by a thread that used the proxy. -/
theorem C116_made (es : List HoldEv) (e : HoldEv) (t p c : Nat) (h : .uses t p c ∈ ((HoldSt.run {} es).1.step e).2) :
    .use t p ∈ es ∧ ∃ t' a, (proxyAddrs es)[p]? = some a ∧ .use t' p ∈ es ∧ .cache (.began t' a c) ∈ (HoldSt.run {} es).2 := by
  obtain ⟨-, hh, hr, -⟩ := uses_go h
  have inv := holdInv_run es
  obtain ⟨t', a, h1, h2, h3⟩ := inv.held _ _ hh
  refine ⟨(inv.ret _ _ hr).2, t', a, by rw [← hold_addrs]; exact h2, h3, ?_⟩
  obtain ⟨g1, g2⟩ := hold_clients es {}
  have hb := (cacheBase_run (HoldSt.trace {} es)).made t' a c
  rw [show (CacheSt.run {} (HoldSt.trace {} es)).1 = (HoldSt.run {} es).1.clients from g1.symm, show (CacheSt.run {} (HoldSt.trace {} es)).2 = cacheOuts (HoldSt.run {} es).2 from g2.symm] at hb
  obtain ⟨x, hx, hxo⟩ := List.mem_filterMap.1 (hb.2 h1)
  cases x with
  | cache o => simp at hxo; subst hxo; exact hx
  | uses => simp at hxo
  | raised => simp at hxo

/-- **C116, partial.** A proxy that only one thread uses works with the client that `get_client` gives this thread for the proxy's server, if clients are closed by their own threads, once and
after construction, and the client was not closed since and its construction did not fail. Missing: see `C116_fails_thread`, `C116_fails_race`, `C116_fails_closed` and `C116_fails_broken`. -/
theorem C116_partial (es : List HoldEv) (ho : Orderly (HoldSt.trace {} es)) (e : HoldEv) (t p c : Nat) (hone : ∀ t', .use t' p ∈ es → t' = t)
    (h : .uses t p c ∈ ((HoldSt.run {} es).1.step e).2)
    (hc : ∀ t', .cache (.closed t' c) ∉ (HoldSt.run {} es).2) (hb : ∀ t' a x, .cache (.broke t' a c x) ∉ (HoldSt.run {} es).2) :
    ∃ a, (proxyAddrs es)[p]? = some a ∧ (HoldSt.run {} es).1.clients.step (.get t a) = ((HoldSt.run {} es).1.clients, [.got t a c]) := by
  obtain ⟨-, t', a, ha, hu, hbegan⟩ := C116_made es e t p c h
  have := hone t' hu; subst this
  refine ⟨a, ha, ?_⟩
  obtain ⟨g1, g2⟩ := hold_clients es {}
  have mem : ∀ o, o ∈ cacheOuts (HoldSt.run {} es).2 ↔ .cache o ∈ (HoldSt.run {} es).2 := by
    intro o
    constructor
    · intro hm
      obtain ⟨x, hx, hxo⟩ := List.mem_filterMap.1 hm
      cases x with
      | cache o => simp at hxo; subst hxo; exact hx
      | uses => simp at hxo
      | raised => simp at hxo
    · intro hm; exact List.mem_filterMap.2 ⟨_, hm, rfl⟩
  have hl : Living (CacheSt.run {} (HoldSt.trace {} es)).2 t' a c := by
    rw [show (CacheSt.run {} (HoldSt.trace {} es)).2 = cacheOuts (HoldSt.run {} es).2 from g2.symm]
    exact ⟨(mem _).2 hbegan, fun x hx => hc x ((mem _).1 hx), fun x y z hx => hb x y z ((mem _).1 hx)⟩
  have hg := ((cacheInv_run _ ho).1 t' a c).2 hl
  rw [show (CacheSt.run {} (HoldSt.trace {} es)).1 = (HoldSt.run {} es).1.clients from g1.symm] at hg
  simp [CacheSt.step, hg]

/-- No thread is on the way to `get_client` and back for proxy `p`. -/
def HoldSt.Settled (σ : HoldSt) (p : Nat) : Prop := ∀ t c, .waiting p c ∉ σ.pc t ∧ .got p c ∉ σ.pc t

theorem settled_step {σ : HoldSt} {p c : Nat} (hs : σ.Settled p) (hh : σ.held p = some c) (e : HoldEv) : (σ.step e).1.Settled p ∧ (σ.step e).1.held p = some c := by
  cases e with
  | make a => exact ⟨hs, hh⟩
  | go t =>
    simp only [HoldSt.step]
    split
    · rename_i p' c' r hpc
      have hp : p ≠ p' := by rintro rfl; exact (hs t c').2 (by rw [hpc]; simp)
      refine ⟨fun t' c1 => ⟨fun h => ?_, fun h => ?_⟩, ?_⟩
      · rcases mem_put h with ⟨rfl, h⟩ | ⟨-, h⟩
        · simp at h; exact (hs t' c1).1 (by rw [hpc]; simp [h])
        · exact (hs t' c1).1 h
      · rcases mem_put h with ⟨rfl, h⟩ | ⟨-, h⟩
        · simp at h; exact (hs t' c1).2 (by rw [hpc]; simp [h])
        · exact (hs t' c1).2 h
      · show put σ.held p' _ p = _
        rw [put_ne _ hp]; exact hh
    · rename_i p' r hpc
      split
      · refine ⟨fun t' c1 => ⟨fun h => ?_, fun h => ?_⟩, hh⟩
        · rcases mem_put h with ⟨rfl, h1⟩ | ⟨-, h⟩
          · exact (hs t' c1).1 (by rw [hpc]; exact List.mem_cons_of_mem _ h1)
          · exact (hs t' c1).1 h
        · rcases mem_put h with ⟨rfl, h1⟩ | ⟨-, h⟩
          · exact (hs t' c1).2 (by rw [hpc]; exact List.mem_cons_of_mem _ h1)
          · exact (hs t' c1).2 h
      · exact ⟨hs, hh⟩
    · exact ⟨hs, hh⟩
  | use t p' =>
    simp only [HoldSt.step]
    split
    · split
      · rename_i a ha hf
        simp only [HoldSt.use]
        split
        · refine ⟨fun t' c1 => ⟨fun h => ?_, fun h => ?_⟩, hh⟩
          · rcases mem_put h with ⟨rfl, h⟩ | ⟨-, h⟩
            · simp at h; exact (hs t' c1).1 h
            · exact (hs t' c1).1 h
          · rcases mem_put h with ⟨rfl, h⟩ | ⟨-, h⟩
            · simp at h; exact (hs t' c1).2 h
            · exact (hs t' c1).2 h
        · rename_i hn
          have hp : p ≠ p' := by rintro rfl; rw [hh] at hn; cases hn
          split
          · refine ⟨fun t' c1 => ⟨fun h => ?_, fun h => ?_⟩, hh⟩
            · rcases mem_put h with ⟨rfl, h⟩ | ⟨-, h⟩
              · simp at h; exact (hs t' c1).1 h
              · exact (hs t' c1).1 h
            · rcases mem_put h with ⟨rfl, h⟩ | ⟨-, h⟩
              · simp [hp] at h; exact (hs t' c1).2 h
              · exact (hs t' c1).2 h
          · refine ⟨fun t' c1 => ⟨fun h => ?_, fun h => ?_⟩, hh⟩
            · rcases mem_put h with ⟨rfl, h⟩ | ⟨-, h⟩
              · simp [hp] at h; exact (hs t' c1).1 h
              · exact (hs t' c1).1 h
            · rcases mem_put h with ⟨rfl, h⟩ | ⟨-, h⟩
              · simp at h; exact (hs t' c1).2 h
              · exact (hs t' c1).2 h
          · exact ⟨hs, hh⟩
      · exact ⟨hs, hh⟩
    · exact ⟨hs, hh⟩
  | cache e =>
    have hend : ∀ (cs : CacheSt) (o : CacheOut), HoldSt.Settled (HoldSt.ended { σ with clients := cs } o).1 p ∧ (HoldSt.ended { σ with clients := cs } o).1.held p = some c := by
      intro cs o
      refine ⟨?_, by rw [(ended_clients _ o).2.2.2]; exact hh⟩
      unfold HoldSt.ended
      split
      · rename_i t0 a0 c0
        split
        · rename_i p0 c1 r0 hp0
          have hp0 : σ.pc t0 = _ := hp0
          have hp : p ≠ p0 := by rintro rfl; exact (hs t0 c1).1 (by rw [hp0]; simp)
          split
          · refine fun t' c1 => ⟨fun h => ?_, fun h => ?_⟩
            · rcases mem_put h with ⟨rfl, h⟩ | ⟨-, h⟩
              · simp at h; exact (hs t' c1).1 (by rw [hp0]; simp [h])
              · exact (hs t' c1).1 h
            · rcases mem_put h with ⟨rfl, h⟩ | ⟨-, h⟩
              · simp [hp] at h; exact (hs t' c1).2 (by rw [hp0]; simp [h])
              · exact (hs t' c1).2 h
          · exact hs
        · exact hs
      · rename_i t0 a0 c0 e0
        split
        · rename_i p0 c1 r0 hp0
          have hp0 : σ.pc t0 = _ := hp0
          split
          · refine fun t' c1 => ⟨fun h => ?_, fun h => ?_⟩
            · rcases mem_put h with ⟨rfl, h2⟩ | ⟨-, h⟩
              · exact (hs t' c1).1 (by rw [hp0]; exact List.mem_cons_of_mem _ h2)
              · exact (hs t' c1).1 h
            · rcases mem_put h with ⟨rfl, h2⟩ | ⟨-, h⟩
              · exact (hs t' c1).2 (by rw [hp0]; exact List.mem_cons_of_mem _ h2)
              · exact (hs t' c1).2 h
          · exact hs
        · exact hs
      · exact hs
    simp only [HoldSt.step]
    split
    · generalize σ.clients.step e = x
      obtain ⟨cs, os'⟩ := x
      dsimp only
      split
      · exact hend _ _
      · exact hend _ _
      · exact ⟨hs, hh⟩
    · exact ⟨hs, hh⟩

/-- **C116** A proxy never changes its client: once `_client()` has returned a client while no other thread was about to set one, every later call in any thread returns this client, whatever happens
to it. -/
theorem C116_keeps (es : List HoldEv) (e : HoldEv) (es' : List HoldEv) (t p c : Nat) (h : .uses t p c ∈ ((HoldSt.run {} es).1.step e).2) (hs : (HoldSt.run {} es).1.Settled p) :
    ∀ t' c', .uses t' p c' ∈ (((HoldSt.run {} es).1.step e).1.run es').2 → c' = c := by
  have h0 := settled_step hs (uses_go h).2.1 e
  generalize ((HoldSt.run {} es).1.step e).1 = σ at h0
  clear hs h
  induction es' generalizing σ with
  | nil => intro t' c' h; simp [HoldSt.run] at h
  | cons e' es' ih =>
    intro t' c' h
    simp only [HoldSt.run] at h
    rcases List.mem_append.1 h with h | h
    · have := (uses_go h).2.1
      rw [h0.2] at this; cases this; rfl
    · exact ih _ (settled_step h0.1 h0.2 e') t' c' h

/-! ## C118: the client of a thread for its own server -/

/-- **C118** In all histories of servers and clients, `local_client()` raises AttributeError if no server is registered for the calling thread. Otherwise it changes no existing client, and either
returns a client this thread made for the address of the server registered for it, or makes one. -/
theorem C118_local_client (rs : List RegEv) (es : List CacheEv) (address : Nat → Bytes) (t : Nat) :
    (holder t (RegSt.run {} rs).2 = none → localClient (RegSt.run {} rs).1 address (CacheSt.run {} es).1 t = .error .attributeError) ∧
    ∀ s, holder t (RegSt.run {} rs).2 = some s → ∃ σ o, localClient (RegSt.run {} rs).1 address (CacheSt.run {} es).1 t = .ok (σ, [o]) ∧
      ((∃ c, o = .got t (address s) c ∧ .began t (address s) c ∈ (CacheSt.run {} es).2 ∧ σ = (CacheSt.run {} es).1) ∨
       (∃ c, o = .began t (address s) c ∧ (∀ t' a', .began t' a' c ∉ (CacheSt.run {} es).2) ∧ ∀ k, k ≠ (t, address s) → σ.cache.get? k = (CacheSt.run {} es).1.cache.get? k)) := by
  have hr := (reg_holder rs).2 t
  have hb := cacheBase_run es
  refine ⟨fun h => ?_, fun s h => ?_⟩
  · simp only [localClient, hr, h]
  · simp only [localClient, hr, h, CacheSt.step]
    cases hc : (CacheSt.run {} es).1.cache.get? (t, address s) with
    | some c => exact ⟨_, _, rfl, .inl ⟨c, rfl, (hb.made _ _ _).2 (hb.cached _ _ _ hc), rfl⟩⟩
    | none =>
      simp only [CacheSt.new, Dict.has, hc, Option.isSome_none, Bool.false_eq_true, if_false]
      refine ⟨_, _, rfl, .inr ⟨_, rfl, ?_, ?_⟩⟩
      · intro t' a' hm
        have := (hb.made _ _ _).1 hm
        simp at this
      · intro k hk
        simp [Dict.get?_set, Ne.symm hk]

/-- **C118** As long as clients are closed by their own threads, once and after construction, `local_client()` returns the one living client of the thread for its server, if there is one. -/
theorem C118_same_client (rs : List RegEv) (es : List CacheEv) (ho : Orderly es) (address : Nat → Bytes) (t s c : Nat) (hs : holder t (RegSt.run {} rs).2 = some s)
    (hc : Living (CacheSt.run {} es).2 t (address s) c) : localClient (RegSt.run {} rs).1 address (CacheSt.run {} es).1 t = .ok ((CacheSt.run {} es).1, [.got t (address s) c]) := by
  simp only [localClient, (reg_holder rs).2 t, hs]
  rw [(C39_same_client_partial es ho t (address s) c hc).1]

namespace Ex

/-- an address -/
def adr1 : Bytes := [1]

/-- **C116 fails**: a proxy first used in thread 1 works with the client of thread 1 in thread 2 too, although `get_client` makes another one there. -/
theorem C116_fails_thread : let es : List HoldEv := [.make adr1, .use 1 0, .cache (.connected 1), .go 1, .go 1, .use 2 0]
    ((HoldSt.run {} es).1.step (.go 2)).2 = [.uses 2 0 0] ∧ .cache (.began 1 adr1 0) ∈ (HoldSt.run {} es).2 ∧
    ((HoldSt.run {} es).1.clients.step (.get 2 adr1)).2 = [.began 2 adr1 1] := by
  decide +kernel

/-- **C116 fails**: two threads use a proxy for the first time at the same time: thread 1 gets the client of thread 2. -/
theorem C116_fails_race : (HoldSt.run {} [.make adr1, .use 1 0, .use 2 0, .cache (.connected 1), .cache (.connected 2), .go 1, .go 2, .go 1, .go 2]).2 =
    [.cache (.began 1 adr1 0), .cache (.began 2 adr1 1), .cache (.got 1 adr1 0), .cache (.got 2 adr1 1), .uses 1 0 1, .uses 2 0 1] := by
  decide +kernel

/-- **C116 fails**: after the client was closed (and a new one made for the address) the proxy still works with the closed one. -/
theorem C116_fails_closed : (HoldSt.run {} [.make adr1, .use 1 0, .cache (.connected 1), .go 1, .go 1, .cache (.close 1 0), .cache (.get 1 adr1), .cache (.connected 1), .use 1 0, .go 1]).2 =
    [.cache (.began 1 adr1 0), .cache (.got 1 adr1 0), .uses 1 0 0, .cache (.closed 1 0), .cache (.began 1 adr1 1), .cache (.got 1 adr1 1), .uses 1 0 0] := by
  decide +kernel

/-- **C116 fails**: a proxy used (by a request the thread carries out for others) while a client for its address connects keeps this client although its construction fails. -/
theorem C116_fails_broken : (HoldSt.run {} [.make adr1, .cache (.new 1 adr1), .use 1 0, .go 1, .go 1, .cache (.failed 1 .timeoutError), .use 1 0, .go 1]).2 =
    [.cache (.began 1 adr1 0), .cache (.got 1 adr1 0), .uses 1 0 0, .cache (.broke 1 adr1 0 .timeoutError), .uses 1 0 0] := by
  decide +kernel

/-- a history for `C116_partial`: two proxies of the same address, each used in its own thread -/
example : let es : List HoldEv := [.make adr1, .make adr1, .use 1 0, .use 2 1, .cache (.connected 2), .go 2, .cache (.connected 1), .go 1, .go 1, .go 2, .use 2 1]
    ((HoldSt.run {} es).1.step (.go 2)).2 = [.uses 2 1 1] ∧ HoldSt.trace {} es = [.get 1 adr1, .get 2 adr1, .connected 2, .connected 1] ∧
    (HoldSt.run {} es).2 = [.cache (.began 1 adr1 0), .cache (.began 2 adr1 1), .cache (.got 2 adr1 1), .cache (.got 1 adr1 0), .uses 1 0 0, .uses 2 1 1] := by
  decide +kernel

example : Orderly [.get 1 adr1, .get 2 adr1, .connected 2, .connected 1] := by
  intro pre t c post h
  have : CacheEv.close t c ∈ [CacheEv.get 1 adr1, .get 2 adr1, .connected 2, .connected 1] := by rw [h]; simp
  simp at this

/-- C118: a thread with a server and without; the thread's second call gives the same client -/
example : let reg := (RegSt.run {} [.register 1 7, .go 1, .go 1, .go 1]).1
    let σ := (CacheSt.run {} [.get 1 [7], .connected 1]).1
    (match localClient reg (fun s => [s.toUInt8]) {} 1, localClient reg (fun s => [s.toUInt8]) σ 1, localClient reg (fun s => [s.toUInt8]) {} 2 with
      | .ok (_, [.began 1 [7] 0]), .ok (_, [.got 1 [7] 0]), .error .attributeError => true
      | _, _, _ => false) = true := by decide +kernel

end Ex

namespace Ex

/-! ## The theorems on these cases -/

/-- Two proxies of the same address, each used in its own thread. -/
def holdEvs : List HoldEv := [.make adr1, .make adr1, .use 1 0, .use 2 1, .cache (.connected 2), .go 2, .cache (.connected 1), .go 1, .go 1, .go 2, .use 2 1]
theorem holdEvs_uses : .uses 2 1 1 ∈ ((HoldSt.run {} holdEvs).1.step (.go 2)).2 := by
  have : ((HoldSt.run {} holdEvs).1.step (.go 2)).2 = [.uses 2 1 1] := by decide +kernel
  rw [this]; simp
theorem holdEvs_outs : (HoldSt.run {} holdEvs).2 = [.cache (.began 1 adr1 0), .cache (.began 2 adr1 1), .cache (.got 2 adr1 1), .cache (.got 1 adr1 0), .uses 1 0 0, .uses 2 1 1] := by
  decide +kernel
theorem holdEvs_orderly : Orderly (HoldSt.trace {} holdEvs) := by
  have : HoldSt.trace {} holdEvs = [.get 1 adr1, .get 2 adr1, .connected 2, .connected 1] := by decide +kernel
  rw [this]
  intro pre t c post h
  have : CacheEv.close t c ∈ [CacheEv.get 1 adr1, .get 2 adr1, .connected 2, .connected 1] := by rw [h]; simp
  simp at this
example := C116_made holdEvs (.go 2) 2 1 1 holdEvs_uses
example := C116_partial holdEvs holdEvs_orderly (.go 2) 2 1 1 (by simp [holdEvs]) holdEvs_uses (by simp [holdEvs_outs]) (by simp [holdEvs_outs])
theorem holdEvs_settled : (HoldSt.run {} holdEvs).1.Settled 1 := by
  intro t c
  have h : (HoldSt.run {} holdEvs).1.pc t = if t = 2 then [.returning 1] else [] := by
    rcases t with _ | _ | _ | t <;> rfl
  rw [h]
  split <;> simp
example := C116_keeps holdEvs (.go 2) [.use 2 1, .go 2] 2 1 1 holdEvs_uses holdEvs_settled
example := C118_same_client [.register 1 7, .go 1, .go 1, .go 1] [.get 1 [7], .connected 1] (by
    intro pre t c post h
    have : CacheEv.close t c ∈ [CacheEv.get 1 [7], .connected 1] := by rw [h]; simp
    simp at this) (fun s => [s.toUInt8]) 1 7 0 (by decide +kernel) (by
    have : (CacheSt.run {} [.get 1 [7], .connected 1]).2 = [.began 1 [7] 0, .got 1 [7] 0] := by decide +kernel
    rw [this]; exact ⟨by simp, by simp, by simp⟩)

end Ex

end Verif
