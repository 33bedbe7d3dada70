import Verif.Spec.Succession
import Verif.Props.Refs
import Verif.Proof.Registry
/-!
# Servers that follow one another at one address: proofs
-/
namespace Verif

theorem succ_run_append (idOf : Nat → Obj → Nat) (s : SuccSt) (es es' : List SuccEv) :
    s.run idOf (es ++ es') = (((s.run idOf es).1.run idOf es').1, (s.run idOf es).2 ++ ((s.run idOf es).1.run idOf es').2) := by
  induction es generalizing s with
  | nil => simp [SuccSt.run]
  | cons e es ih => simp [SuccSt.run, ih]

/-- The table after `os` were handed out by a new server. -/
def given (id : Obj → Nat) (os : List Obj) : Refs := os.foldl (fun t o => (t.getProxy id o).1) Refs.init

theorem given_spec (id : Obj → Nat) (os : List Obj) (h : (os.map id).Nodup) :
    (given id os).nextOid = os.length ∧ (given id os).nextRid = os.length ∧ (∀ k, (given id os).refs.get? k = os[k]?.map fun o => (o, [k])) ∧
      ∀ a, a ∉ os.map id → (given id os).idMap.get? a = none := by
  induction os using snoc_induction with
  | h0 => simp [given, Refs.init, Dict.get?]
  | hs os o ih =>
    rw [List.map_append, List.nodup_append] at h
    obtain ⟨h1, h2, h3, h4⟩ := ih h.1
    have hn : id o ∉ os.map id := fun hm => h.2.2 _ hm _ (by simp) rfl
    have h5 := h4 _ hn
    have h6 : given id (os ++ [o]) = ((given id os).getProxy id o).1 := by simp [given]
    have h7 : (given id os).refs.get? os.length = none := by rw [h3]; simp
    rw [h6]
    simp only [Refs.getProxy, Refs.getObjectId, h5, h1, List.all_nil, if_true, h2, h7]
    refine ⟨by simp, by simp, fun k => ?_, fun a ha => ?_⟩
    · rw [Dict.get?_set]
      by_cases hk : k = os.length
      · subst hk; simp [setAdd]
      · rw [if_neg (fun h => hk h.symm), h3]
        congr 1
        by_cases hl : k < os.length
        · rw [List.getElem?_append_left hl]
        · rw [List.getElem?_eq_none (by omega), List.getElem?_eq_none (by simp; omega)]
    · rw [Dict.get?_set]
      simp only [List.map_append, List.mem_append, not_or, List.map_cons, List.map_nil, List.mem_singleton] at ha
      rw [if_neg (fun h => ha.2 h.symm), h4 a ha.1]

/-- Asking for objects hands them out one after the other. -/
theorem asksFor_run (idOf : Nat → Obj → Nat) (n : Nat) (os : List Obj) (s : SuccSt) (hu : s.up = true) (hq : s.queue = []) (hg : s.gone n = false) :
    ((s.run idOf (asksFor n os)).1.up = true ∧ (s.run idOf (asksFor n os)).1.queue = [] ∧ (s.run idOf (asksFor n os)).1.gone = s.gone ∧
      (s.run idOf (asksFor n os)).1.note = s.note ∧ (s.run idOf (asksFor n os)).1.gen = s.gen ∧
      (s.run idOf (asksFor n os)).1.table = os.foldl (fun t o => (t.getProxy (idOf s.gen) o).1) s.table) ∧
      (os ≠ [] → n ∈ (s.run idOf (asksFor n os)).1.known) ∧ ∀ m ∈ s.known, m ∈ (s.run idOf (asksFor n os)).1.known := by
  induction os generalizing s with
  | nil => simp [asksFor, SuccSt.run, hu, hq]
  | cons o os ih =>
    obtain ⟨gen, up, table, known, note, gone, queue⟩ := s
    subst hu hq
    have h1 : ∃ oid rid t, table.getProxy (idOf gen) o = (t, .ok (oid, rid)) := by
      simp only [Refs.getProxy, List.all_nil, if_true]; exact ⟨_, _, _, rfl⟩
    obtain ⟨oid, rid, t, h1⟩ := h1
    have h2 : asksFor n (o :: os) = [.send n (.make o), .carry] ++ asksFor n os := rfl
    have h3 : (SuccSt.run idOf ⟨gen, true, table, known, note, gone, []⟩ [.send n (.make o), .carry]).1 =
        ⟨gen, true, t, if n ∈ known then known else known ++ [n], note, gone, []⟩ := by
      have : gone n = false := hg
      simp [SuccSt.run, SuccSt.step, SuccSt.carry, h1, this]
    rw [h2, succ_run_append, h3]
    obtain ⟨g1, g2, g3⟩ := ih ⟨gen, true, t, if n ∈ known then known else known ++ [n], note, gone, []⟩ rfl rfl hg
    refine ⟨?_, fun _ => g3 n ?_, fun m hm => g3 m ?_⟩
    · simpa [h1] using g1
    · simp only; split <;> simp_all
    · simp only; split <;> simp_all

/-- What holds in every history for every server there was. -/
def SuccInv (idOf : Nat → Obj → Nat) (s : SuccSt) (out : List SuccOut) : Prop :=
  (∀ n g oid rid o, .made n g oid rid o ∈ out → g ≤ s.gen) ∧ (∀ n g g₀ oid o, .reached n g g₀ oid o ∈ out → g ≤ s.gen) ∧
  ∀ g ≤ s.gen, ∃ h t, Reach (idOf g) h t ∧ (g = s.gen → t = s.table) ∧
    (∀ n oid rid o, .made n g oid rid o ∈ out → ⟨oid, rid, o⟩ ∈ handedOut h) ∧
    ∀ n g₀ oid o, .reached n g g₀ oid o ∈ out → ∃ x ∈ handedOut h, x.oid = oid ∧ x.obj = o

theorem succInv_keep {idOf : Nat → Obj → Nat} {s s' : SuccSt} {out : List SuccOut} (h : SuccInv idOf s out) (hg : s'.gen = s.gen) (ht : s'.table = s.table) :
    SuccInv idOf s' out := by
  unfold SuccInv at *; rw [hg, ht]; exact h

theorem succInv_next {idOf : Nat → Obj → Nat} {s : SuccSt} {out : List SuccOut} (h : SuccInv idOf s out) (hs : RefHistory) (g1 : Reach (idOf s.gen) hs s.table)
    (g3 : ∀ n oid rid o, .made n s.gen oid rid o ∈ out → ⟨oid, rid, o⟩ ∈ handedOut hs)
    (g4 : ∀ n g₀ oid o, .reached n s.gen g₀ oid o ∈ out → ∃ x ∈ handedOut hs, x.oid = oid ∧ x.obj = o) (s' : SuccSt) (r : Refs × SuccOut)
    (hg : s'.gen = s.gen) (ht : s'.table = r.1)
    (hr : ∃ hs', Reach (idOf s.gen) hs' r.1 ∧ (∀ x ∈ handedOut hs, x ∈ handedOut hs') ∧
      (∀ n g oid rid o, r.2 = .made n g oid rid o → g = s.gen ∧ ⟨oid, rid, o⟩ ∈ handedOut hs') ∧
      ∀ n g g₀ oid o, r.2 = .reached n g g₀ oid o → g = s.gen ∧ ∃ x ∈ handedOut hs', x.oid = oid ∧ x.obj = o) :
    SuccInv idOf s' (out ++ [r.2]) := by
  obtain ⟨hs', r1, r2, r3, r4⟩ := hr
  obtain ⟨h1, h2, h3⟩ := h
  unfold SuccInv
  rw [hg, ht]
  refine ⟨fun n g oid rid o hm => ?_, fun n g g₀ oid o hm => ?_, fun g hl => ?_⟩
  · rcases List.mem_append.1 hm with hm | hm
    · exact h1 _ _ _ _ _ hm
    · exact Nat.le_of_eq (r3 _ _ _ _ _ (List.mem_singleton.1 hm).symm).1
  · rcases List.mem_append.1 hm with hm | hm
    · exact h2 _ _ _ _ _ hm
    · exact Nat.le_of_eq (r4 _ _ _ _ _ (List.mem_singleton.1 hm).symm).1
  · by_cases he : g = s.gen
    · subst he
      refine ⟨hs', r.1, r1, fun _ => rfl, fun n oid rid o hm => ?_, fun n g₀ oid o hm => ?_⟩
      · rcases List.mem_append.1 hm with hm | hm
        · exact r2 _ (g3 _ _ _ _ hm)
        · exact (r3 _ _ _ _ _ (List.mem_singleton.1 hm).symm).2
      · rcases List.mem_append.1 hm with hm | hm
        · obtain ⟨x, hx, hx'⟩ := g4 _ _ _ _ hm
          exact ⟨x, r2 _ hx, hx'⟩
        · exact (r4 _ _ _ _ _ (List.mem_singleton.1 hm).symm).2
    · obtain ⟨h, t, e1, e2, e3, e4⟩ := h3 g hl
      refine ⟨h, t, e1, fun h => absurd h he, fun n oid rid o hm => ?_, fun n g₀ oid o hm => ?_⟩
      · rcases List.mem_append.1 hm with hm | hm
        · exact e3 _ _ _ _ hm
        · exact absurd (r3 _ _ _ _ _ (List.mem_singleton.1 hm).symm).1 he
      · rcases List.mem_append.1 hm with hm | hm
        · exact e4 _ _ _ _ hm
        · exact absurd (r4 _ _ _ _ _ (List.mem_singleton.1 hm).symm).1 he

/-- What a server does keeps its table one that can be reached. -/
theorem succ_carry {idOf : Nat → Obj → Nat} {s : SuccSt} (hs : RefHistory) (g1 : Reach (idOf s.gen) hs s.table) (n : Nat) (a : SuccAsk)
    (hi : ∀ o, a = .make o → ∀ oid o' r, s.table.refs.get? oid = some (o', r) → idOf s.gen o' = idOf s.gen o → o' = o) :
    ∃ hs', Reach (idOf s.gen) hs' (s.carry idOf n a).1 ∧ (∀ x ∈ handedOut hs, x ∈ handedOut hs') ∧
      (∀ n' g oid rid o, (s.carry idOf n a).2 = .made n' g oid rid o → g = s.gen ∧ ⟨oid, rid, o⟩ ∈ handedOut hs') ∧
      ∀ n' g g₀ oid o, (s.carry idOf n a).2 = .reached n' g g₀ oid o → g = s.gen ∧ ∃ x ∈ handedOut hs', x.oid = oid ∧ x.obj = o := by
  cases a with
  | make o =>
    have hd : IdsDistinct (idOf s.gen) hs (.get o []) := by
      intro x hx he
      obtain ⟨r, hr, -⟩ := (g1.inv.out x).1 hx
      exact hi o rfl _ _ _ hr he
    have hr := Reach.step (.get o []) g1 hd
    obtain ⟨oid, rid, t, h1⟩ : ∃ oid rid t, s.table.getProxy (idOf s.gen) o = (t, .ok (oid, rid)) := by
      simp only [Refs.getProxy, List.all_nil, if_true]; exact ⟨_, _, _, rfl⟩
    simp only [Refs.step, h1] at hr
    refine ⟨_, by simpa only [SuccSt.carry, h1] using hr, fun x hx => by rw [handedOut_append]; exact List.mem_append_left _ hx, ?_, ?_⟩
    · intro n' g oid' rid' o' he
      simp only [SuccSt.carry, h1, SuccOut.made.injEq] at he
      obtain ⟨-, rfl, rfl, rfl, rfl⟩ := he
      exact ⟨rfl, by rw [handedOut_append]; exact List.mem_append_right _ (List.mem_singleton.2 rfl)⟩
    · intro n' g g₀ oid' o' he
      simp [SuccSt.carry, h1] at he
  | use g oid =>
    cases hl : s.table.lookup oid with
    | error e =>
      refine ⟨hs, by simpa [SuccSt.carry, hl] using g1, fun _ h => h, ?_, ?_⟩ <;> intros <;> simp_all [SuccSt.carry]
    | ok o =>
      refine ⟨hs, by simpa [SuccSt.carry, hl] using g1, fun _ h => h, ?_, ?_⟩
      · intros; simp_all [SuccSt.carry]
      · intro n' g' g₀ oid' o' he
        simp only [SuccSt.carry, hl, SuccOut.reached.injEq] at he
        obtain ⟨-, rfl, rfl, rfl, rfl⟩ := he
        obtain ⟨x, hx, hx'⟩ := (C01_resolvable_iff_outstanding g1 _ _).1 hl
        exact ⟨rfl, x, g1.inv.sub x hx, hx'⟩
  | delete g oid rid =>
    have hr := Reach.step (.delete oid rid) g1 trivial
    cases hl : s.table.delete (idOf s.gen) oid rid with
    | mk t r =>
      cases r with
      | error e =>
        simp only [Refs.step, hl] at hr
        refine ⟨_, by simpa only [SuccSt.carry, hl] using hr, fun x hx => by rw [handedOut_append]; exact List.mem_append_left _ hx, ?_, ?_⟩ <;>
          intros <;> simp_all [SuccSt.carry]
      | ok u =>
        simp only [Refs.step, hl] at hr
        refine ⟨_, by simpa only [SuccSt.carry, hl] using hr, fun x hx => by rw [handedOut_append]; exact List.mem_append_left _ hx, ?_, ?_⟩ <;>
          intros <;> simp_all [SuccSt.carry]

theorem succInv_step (idOf : Nat → Obj → Nat) (s : SuccSt) (out : List SuccOut) (e : SuccEv) (h : SuccInv idOf s out) (hi : s.IdsOk idOf [e]) :
    SuccInv idOf (s.step idOf e).1 (out ++ (s.step idOf e).2) := by
  cases e with
  | send n a =>
    simp only [SuccSt.step]
    split
    · obtain ⟨h1, h2, h3⟩ := h
      refine ⟨by simpa using h1, by simpa using h2, fun g hg => ?_⟩
      obtain ⟨h, t, g1, g2, g3, g4⟩ := h3 g hg
      exact ⟨h, t, g1, g2, by simpa using g3, by simpa using g4⟩
    · rw [List.append_nil]; exact succInv_keep h rfl rfl
  | lose => simpa [SuccSt.step] using succInv_keep (s' := { s with queue := s.queue.tail }) h rfl rfl
  | close => simp only [SuccSt.step]; split <;> (rw [List.append_nil]; exact succInv_keep h rfl rfl)
  | crash => simpa [SuccSt.step] using succInv_keep (s' := { s with up := false, known := [] }) h rfl rfl
  | read n => simp only [SuccSt.step]; split <;> (rw [List.append_nil]; exact succInv_keep h rfl rfl)
  | renew n => simp only [SuccSt.step]; split <;> (rw [List.append_nil]; exact succInv_keep h rfl rfl)
  | start =>
    simp only [SuccSt.step]
    split
    · simpa using h
    · obtain ⟨h1, h2, h3⟩ := h
      refine ⟨fun n g oid rid o hm => ?_, fun n g g₀ oid o hm => ?_, fun g hg => ?_⟩
      · have := h1 n g oid rid o (by simpa using hm); simp only; omega
      · have := h2 n g g₀ oid o (by simpa using hm); simp only; omega
      · simp only at hg ⊢
        by_cases hl : g = s.gen + 1
        · refine ⟨[], Refs.init, .init, fun _ => rfl, fun n oid rid o hm => ?_, fun n g₀ oid o hm => ?_⟩
          · have := h1 n g oid rid o (by simpa using hm); omega
          · have := h2 n g g₀ oid o (by simpa using hm); omega
        · obtain ⟨h, t, g1, g2, g3, g4⟩ := h3 g (by omega)
          exact ⟨h, t, g1, fun h => absurd h hl, by simpa using g3, by simpa using g4⟩
  | carry =>
    have hi := hi.1 rfl
    simp only [SuccSt.step]
    split
    rotate_left
    · simpa using h
    · rename_i n a q hu hq
      obtain ⟨hs, t, g1, g2, g3, g4⟩ := h.2.2 s.gen (Nat.le_refl _)
      have g2 := g2 rfl
      subst g2
      exact succInv_next h hs g1 g3 g4 _ (s.carry idOf n a) rfl rfl (succ_carry hs g1 n a fun o ho => hi n o q (by rw [hq, ho]))

theorem succInv_run (idOf : Nat → Obj → Nat) (s : SuccSt) (out : List SuccOut) (es : List SuccEv) (h : SuccInv idOf s out) (hi : s.IdsOk idOf es) :
    SuccInv idOf (s.run idOf es).1 (out ++ (s.run idOf es).2) := by
  induction es generalizing s out with
  | nil => simpa [SuccSt.run] using h
  | cons e es ih =>
    have := ih _ _ (succInv_step idOf s out e h ⟨hi.1, trivial⟩) hi.2
    simpa [SuccSt.run] using this

theorem succInv_init (idOf : Nat → Obj → Nat) : SuccInv idOf {} [] :=
  ⟨by simp, by simp, fun g hg => ⟨[], Refs.init, .init, fun _ => rfl, by simp, by simp⟩⟩

end Verif
