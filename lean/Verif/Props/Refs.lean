import Verif.Proof.Refs
/-!
# C01–C06: proxy references of one server

All theorems quantify over every observable history `h` leading to a table `t` (`Reach idOf h t`), for
every `idOf` that gives different numbers to objects alive together. The vocabulary (`outstanding`,
`handedOut`, `Handle`) is defined from the history alone in `Verif.Spec.Refs`.
-/
namespace Verif

/-! ## A concrete history used as a non-vacuity witness

Objects 7 and 8 share `id()` 100 (8 is created after 7 was released); object 9 has `id()` 200. -/

/-- The allocator of the example. -/
def exIdOf : Obj → Nat := fun o => if o = 9 then 200 else 100

/-- The example history: two proxies for 7, one for 9, both of 7 deleted, one rejected call, one proxy for 8. -/
def exHist : RefHistory :=
  [(.get 7 [], .proxy 0 0), (.get 9 ["sync"], .proxy 1 1), (.get 7 [], .proxy 0 2),
   (.delete 0 0, .deleted), (.delete 0 0, .raised .keyError), (.delete 0 2, .deleted),
   (.get 9 ["bogus"], .raised .keyError), (.get 8 [], .proxy 2 4)]

/-- The table after the example history. -/
def exTable : Refs := ⟨3, 5, [(1, (9, [1])), (2, (8, [4]))], [(200, 1), (100, 2)]⟩

theorem exReach : Reach exIdOf exHist exTable := by
  have r0 := Reach.init (idOf := exIdOf)
  have r1 := Reach.step (.get 7 []) r0 (by decide)
  have r2 := Reach.step (.get 9 ["sync"]) r1 (by decide)
  have r3 := Reach.step (.get 7 []) r2 (by decide)
  have r4 := Reach.step (.delete 0 0) r3 trivial
  have r5 := Reach.step (.delete 0 0) r4 trivial
  have r6 := Reach.step (.delete 0 2) r5 trivial
  have r7 := Reach.step (.get 9 ["bogus"]) r6 (by decide)
  have r8 := Reach.step (.get 8 []) r7 (by decide)
  exact r8

example : outstanding exHist = [⟨1, 1, 9⟩, ⟨2, 4, 8⟩] := by decide

/-! ## C01 -/

/-- **C01.** An object id resolves to `o` exactly while a proxy with that id handed out for `o` is
outstanding. -/
theorem C01_resolvable_iff_outstanding {idOf h t} (hr : Reach idOf h t) (oid : Nat) (o : Obj) :
    t.lookup oid = .ok o ↔ ∃ x ∈ outstanding h, x.oid = oid ∧ x.obj = o := by
  have hI := hr.inv
  constructor
  · intro hl
    unfold Refs.lookup at hl
    split at hl
    · rename_i o' s hs
      simp only [Except.ok.injEq] at hl
      subst hl
      obtain ⟨r, hr'⟩ := List.exists_mem_of_ne_nil _ (hI.entry _ _ _ hs).1
      exact ⟨⟨oid, r, o'⟩, (hI.out _).2 ⟨s, hs, hr'⟩, rfl, rfl⟩
    · simp at hl
  · rintro ⟨x, hx, rfl, rfl⟩
    obtain ⟨s, hs, _⟩ := (hI.out x).1 hx
    simp [Refs.lookup, hs]

/-- **C01**, failing side: with no outstanding proxy the lookup raises `KeyError` (it does nothing else). -/
theorem C01_unresolvable_keyError {idOf h t} (hr : Reach idOf h t) (oid : Nat)
    (hn : ∀ x ∈ outstanding h, x.oid ≠ oid) : t.lookup oid = .error .keyError := by
  cases hl : t.lookup oid with
  | ok o =>
    obtain ⟨x, hx, he, _⟩ := (C01_resolvable_iff_outstanding hr oid o).1 hl
    exact absurd he (hn x hx)
  | error e =>
    unfold Refs.lookup at hl
    split at hl <;> simp_all

/-- **C01**, release: the server's own table (the only thing keeping proxied objects alive) holds an object
exactly while one of its proxies is outstanding. -/
theorem C01_held_iff_outstanding {idOf h t} (hr : Reach idOf h t) (o : Obj) :
    (∃ oid s, (oid, (o, s)) ∈ t.refs) ↔ ∃ x ∈ outstanding h, x.obj = o := by
  have hI := hr.inv
  have hw : t.refs.WF := hr.wf
  constructor
  · rintro ⟨oid, s, hm⟩
    have hs := Dict.get?_of_mem hw hm
    obtain ⟨r, hr'⟩ := List.exists_mem_of_ne_nil _ (hI.entry _ _ _ hs).1
    exact ⟨⟨oid, r, o⟩, (hI.out _).2 ⟨s, hs, hr'⟩, rfl⟩
  · rintro ⟨x, hx, rfl⟩
    obtain ⟨s, hs, _⟩ := (hI.out x).1 hx
    exact ⟨x.oid, s, Dict.get?_some_mem hs⟩

example : exTable.lookup 1 = .ok 9 ∧ exTable.lookup 2 = .ok 8 ∧ exTable.lookup 0 = .error .keyError := by
  decide
example : ∃ x ∈ outstanding exHist, x.oid = 1 ∧ x.obj = 9 := by decide

/-! ## C02 -/

/-- **C02.** The reference ids of all proxies ever handed out are pairwise different. -/
theorem C02_ref_ids_distinct {idOf h t} (hr : Reach idOf h t) :
    (handedOut h).Pairwise (fun x y => x.rid ≠ y.rid) := by
  have := hr.inv.ridsNodup
  rwa [List.Nodup, List.pairwise_map] at this

example : (handedOut exHist).map (·.rid) = [0, 1, 2, 4] := by decide

/-! ## C03 -/

/-- **C03.** Two outstanding proxies carry the same object id iff they stand for the same object. -/
theorem C03_object_id_iff_same_object {idOf h t} (hr : Reach idOf h t) {x y : Handle}
    (hx : x ∈ outstanding h) (hy : y ∈ outstanding h) : x.oid = y.oid ↔ x.obj = y.obj := by
  have hI := hr.inv
  constructor
  · exact hI.handedUniq x (hI.sub x hx) y (hI.sub y hy)
  · intro ho
    obtain ⟨s, hs, _⟩ := (hI.out x).1 hx
    obtain ⟨s', hs', _⟩ := (hI.out y).1 hy
    have h1 := (hI.entry _ _ _ hs).2.2
    have h2 := (hI.entry _ _ _ hs').2.2
    rw [ho, h2] at h1
    simpa [eq_comm] using h1

example : (⟨1, 1, 9⟩ : Handle) ∈ outstanding exHist ∧ (⟨2, 4, 8⟩ : Handle) ∈ outstanding exHist := by decide

/-! ## C04 -/

/-- **C04.** Whenever two proxies ever handed out carry the same object id they stand for the same object,
even if `id()` was reused in between. -/
theorem C04_no_stale_aliasing {idOf h t} (hr : Reach idOf h t) {x y : Handle}
    (hx : x ∈ handedOut h) (hy : y ∈ handedOut h) (he : x.oid = y.oid) : x.obj = y.obj :=
  hr.inv.handedUniq x hx y hy he

/-- **C04**, consequence: resolving any proxy ever handed out gives its own object or fails with `KeyError`;
it never gives another object. -/
theorem C04_stale_proxy_fails {idOf h t} (hr : Reach idOf h t) {x : Handle} (hx : x ∈ handedOut h) :
    t.lookup x.oid = .ok x.obj ∨ t.lookup x.oid = .error .keyError := by
  cases hl : t.lookup x.oid with
  | ok o =>
    obtain ⟨y, hy, he, ho⟩ := (C01_resolvable_iff_outstanding hr _ o).1 hl
    left
    rw [← ho, C04_no_stale_aliasing hr hx (hr.inv.sub y hy) he.symm]
  | error e =>
    right
    unfold Refs.lookup at hl
    split at hl <;> simp_all

-- object 7 was released and its `id()` (100) reused by object 8, which got a different object id
example : (⟨0, 0, 7⟩ : Handle) ∈ handedOut exHist ∧ (⟨2, 4, 8⟩ : Handle) ∈ handedOut exHist ∧
    exIdOf 7 = exIdOf 8 ∧ exTable.lookup 0 = .error .keyError := by decide

/-! ## C05 -/

/-- **C05.** A delete succeeds iff the reference is outstanding. -/
theorem C05_delete_succeeds_iff {idOf h t} (hr : Reach idOf h t) (oid rid : Nat) :
    (t.step idOf (.delete oid rid)).2 = .deleted ↔ ∃ x ∈ outstanding h, x.oid = oid ∧ x.rid = rid := by
  have hI := hr.inv
  have hout := hI.out
  simp only [Refs.step, Refs.delete]
  cases hs : t.refs.get? oid with
  | none =>
    simp only [reduceCtorEq, false_iff, not_exists]
    rintro x ⟨hx, rfl, rfl⟩
    obtain ⟨s, h', _⟩ := (hout x).1 hx
    simp [hs] at h'
  | some p =>
    obtain ⟨o, s⟩ := p
    simp only
    by_cases hm : rid ∈ s
    · rw [if_pos hm]
      have : ∃ x ∈ outstanding h, x.oid = oid ∧ x.rid = rid :=
        ⟨⟨oid, rid, o⟩, (hout _).2 ⟨s, hs, hm⟩, rfl, rfl⟩
      split <;> simp [this]
      all_goals (rename_i hc; split at hc <;> simp_all)
    · rw [if_neg hm]
      simp only [reduceCtorEq, false_iff, not_exists]
      rintro x ⟨hx, rfl, rfl⟩
      obtain ⟨s', h', hm'⟩ := (hout x).1 hx
      rw [hs] at h'
      simp only [Option.some.injEq, Prod.mk.injEq] at h'
      rw [h'.2] at hm
      exact hm hm'

/-- **C05.** A delete of a reference that is not outstanding raises `KeyError` and changes nothing at all. -/
theorem C05_rejected_delete_changes_nothing {idOf h t} (hr : Reach idOf h t) (oid rid : Nat)
    (hn : ¬ ∃ x ∈ outstanding h, x.oid = oid ∧ x.rid = rid) :
    t.step idOf (.delete oid rid) = (t, .raised .keyError) := by
  rw [← C05_delete_succeeds_iff hr] at hn
  revert hn
  simp only [Refs.step, Refs.delete]
  repeat' split
  all_goals simp_all
  all_goals (rename_i hc; repeat' split at hc)
  all_goals simp_all

/-- **C05.** A delete (successful or not) leaves every other outstanding proxy outstanding, hence working
(C01). -/
theorem C05_delete_keeps_others {idOf h t} (hr : Reach idOf h t) (oid rid : Nat) {x : Handle}
    (hx : x ∈ outstanding h) (hne : ¬ (x.oid = oid ∧ x.rid = rid)) :
    ((t.step idOf (.delete oid rid)).1).lookup x.oid = .ok x.obj := by
  have hr' := Reach.step (.delete oid rid) hr trivial
  refine (C01_resolvable_iff_outstanding hr' _ _).2 ⟨x, ?_, rfl, rfl⟩
  cases hd : (t.step idOf (.delete oid rid)).2 with
  | deleted => rw [outstanding_append_del]; exact List.mem_filter.2 ⟨hx, decide_eq_true hne⟩
  | raised e => rw [outstanding_append_raised]; exact hx
  | proxy a b =>
    simp only [Refs.step] at hd
    split at hd <;> simp at hd

-- outstanding, already deleted, mismatched object id
example : (∃ x ∈ outstanding exHist, x.oid = 2 ∧ x.rid = 4) ∧
    ¬ (∃ x ∈ outstanding exHist, x.oid = 0 ∧ x.rid = 2) ∧
    ¬ (∃ x ∈ outstanding exHist, x.oid = 1 ∧ x.rid = 4) := by decide

/-! ## C06 (documented behaviour is not what the code does) -/

/-- **C06 is false of the code**: there is a history in which a proxy was deleted and still resolves to its
object (because another proxy to the object is outstanding; `unwrap_proxy` never looks at the reference
id). -/
theorem C06_negation : ∃ (idOf : Obj → Nat) (h : RefHistory) (t : Refs) (x : Handle),
    Reach idOf h t ∧ x ∈ handedOut h ∧ x ∉ outstanding h ∧ t.lookup x.oid = .ok x.obj := by
  have r0 := Reach.init (idOf := id)
  have r1 := Reach.step (.get 7 []) r0 (by decide)
  have r2 := Reach.step (.get 7 []) r1 (by decide)
  have r3 := Reach.step (.delete 0 0) r2 trivial
  exact ⟨id, _, _, ⟨0, 0, 7⟩, r3, by decide, by decide, by decide⟩

/-- **C06**, the part that holds: a proxy ever handed out stops working exactly when no proxy with its
object id is outstanding. Missing: that a deleted proxy stops working immediately. -/
theorem C06_deleted_unusable_partial {idOf h t} (hr : Reach idOf h t) {x : Handle} (_hx : x ∈ handedOut h) :
    t.lookup x.oid = .error .keyError ↔ ∀ y ∈ outstanding h, y.oid ≠ x.oid := by
  constructor
  · intro he y hy hc
    have := (C01_resolvable_iff_outstanding hr x.oid y.obj).2 ⟨y, hy, hc, rfl⟩
    simp [he] at this
  · exact C01_unresolvable_keyError hr _

example : (⟨0, 2, 7⟩ : Handle) ∈ handedOut exHist ∧ ∀ y ∈ outstanding exHist, y.oid ≠ 0 := by decide

/-! ## The theorems on the example -/

example := C01_resolvable_iff_outstanding exReach 1 9
example := C01_unresolvable_keyError exReach 0 (by decide)
example := C01_held_iff_outstanding exReach 9
example := C02_ref_ids_distinct exReach
example := C03_object_id_iff_same_object exReach (x := ⟨1, 1, 9⟩) (y := ⟨2, 4, 8⟩) (by decide) (by decide)
example := C04_no_stale_aliasing exReach (x := ⟨0, 0, 7⟩) (y := ⟨0, 2, 7⟩) (by decide) (by decide) rfl
example := C04_stale_proxy_fails exReach (x := ⟨0, 0, 7⟩) (by decide)
example := C05_delete_succeeds_iff exReach 2 4
example := C05_rejected_delete_changes_nothing exReach 0 2 (by decide)
example := C05_delete_keeps_others exReach 2 4 (x := ⟨1, 1, 9⟩) (by decide) (by decide)
example := C06_deleted_unusable_partial exReach (x := ⟨0, 2, 7⟩) (by decide)

end Verif
