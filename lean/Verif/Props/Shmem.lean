import Verif.Model.Shmem
import Verif.Proof.NdArray
/-!
# C61, C62: shared arrays
-/
namespace Verif

theorem rank_inj {shape i j : List Nat} (hi : InShape i shape) (hj : InShape j shape) (h : rank i shape = rank j shape) : i = j := by
  have h1 := indices_getElem? hi
  rw [h, indices_getElem? hj] at h1
  exact (Option.some.inj h1).symm

theorem putBytes_length (b : Bytes) (i : Nat) (x : Bytes) (h : i + x.length ≤ b.length) : (putBytes b i x).length = b.length := by
  simp only [putBytes, List.length_append, List.length_take, List.length_drop]
  omega

theorem putBytes_get (b : Bytes) (i : Nat) (x : Bytes) (h : i + x.length ≤ b.length) (j : Nat) :
    (putBytes b i x)[j]? = if i ≤ j ∧ j < i + x.length then x[j - i]? else b[j]? := by
  simp only [putBytes, List.append_assoc]
  by_cases h1 : j < i
  · rw [if_neg (by omega), List.getElem?_append_left (by simp only [List.length_take]; omega), List.getElem?_take, if_pos h1]
  · rw [List.getElem?_append_right (by simp only [List.length_take]; omega)]
    have : j - (b.take i).length = j - i := by simp only [List.length_take]; omega
    rw [this]
    by_cases h2 : j < i + x.length
    · rw [if_pos ⟨by omega, h2⟩, List.getElem?_append_left (by omega)]
    · rw [if_neg (by omega), List.getElem?_append_right (by omega), List.getElem?_drop]
      congr 1
      omega

/-- The bytes at a place. -/
def readBytes (b : Bytes) (i m : Nat) : Bytes := (List.range m).map fun k => b.getD (i + k) 0

theorem readBytes_put_same (b : Bytes) (i : Nat) (x : Bytes) (h : i + x.length ≤ b.length) : readBytes (putBytes b i x) i x.length = x := by
  apply List.ext_getElem
  · simp [readBytes]
  · intro k h1 h2
    simp only [readBytes, List.getElem_map, List.getElem_range, List.getD_eq_getElem?_getD]
    rw [putBytes_get b i x h, if_pos (by omega)]
    have : i + k - i = k := by omega
    rw [this, List.getElem?_eq_getElem h2]
    rfl

theorem readBytes_put_other (b : Bytes) (i j m : Nat) (x : Bytes) (h : i + x.length ≤ b.length) (hd : j + m ≤ i ∨ i + x.length ≤ j) :
    readBytes (putBytes b i x) j m = readBytes b j m := by
  simp only [readBytes]
  apply List.map_congr_left
  intro k hk
  simp only [List.mem_range] at hk
  simp only [List.getD_eq_getElem?_getD]
  rw [putBytes_get b i x h, if_neg (by omega)]

theorem shm_get_set (m : ShmMem) (b : Nat) (x : Bytes) : (m.set b x).get b = x := by simp [ShmMem.get, ShmMem.set]

theorem lookup_filter_ne {α} (l : List (Nat × α)) (b c : Nat) (h : c ≠ b) : (l.filter (·.1 ≠ b)).lookup c = l.lookup c := by
  induction l with
  | nil => rfl
  | cons p l ih =>
    obtain ⟨k, v⟩ := p
    by_cases hk : k = b
    · subst hk
      simp only [ne_eq, not_true_eq_false, decide_false, List.filter_cons, Bool.false_eq_true, if_false, List.lookup_cons]
      have : (c == k) = false := by simpa using h
      rw [this]
      exact ih
    · simp only [ne_eq, hk, not_false_eq_true, decide_true, List.filter_cons, if_true, List.lookup_cons]
      cases c == k with
      | true => rfl
      | false => exact ih

theorem shm_get_other (m : ShmMem) (b c : Nat) (x : Bytes) (h : c ≠ b) : (m.set b x).get c = m.get c := by
  have : (c == b) = false := by simpa using h
  simp only [ShmMem.get, ShmMem.set, List.lookup_cons, this]
  rw [lookup_filter_ne _ _ _ h]

/-- An element of a C-ordered view. -/
theorem view_elem (v : ShmView) (m : ShmMem) (hs : v.strides = cStrides v.dtype.itemsize v.shape) (ho : v.offset = 0) {idx} (h : InShape idx v.shape) :
    (v.now m).elem idx = readBytes (m.get v.block) (v.dtype.itemsize * rank idx v.shape) v.dtype.itemsize := by
  simp only [NdArray.elem, ShmView.now, readBytes, hs, ho, dot_cStrides _ h]
  apply List.map_congr_left
  intro k _
  have : ((0 : Nat) : Int) + ((v.dtype.itemsize * rank idx v.shape : Nat) : Int) + (k : Int) = ((v.dtype.itemsize * rank idx v.shape + k : Nat) : Int) := by omega
  rw [this, byteAt, if_pos (by omega), Int.toNat_natCast]

theorem view_put (v : ShmView) (m : ShmMem) (hs : v.strides = cStrides v.dtype.itemsize v.shape) (ho : v.offset = 0) {idx} (h : InShape idx v.shape) (x) :
    v.put m idx x = m.set v.block (putBytes (m.get v.block) (v.dtype.itemsize * rank idx v.shape) x) := by
  simp only [ShmView.put, hs, ho, dot_cStrides _ h]
  congr 2
  omega

theorem rank_bound {shape idx : List Nat} (h : InShape idx shape) (m : Nat) : m * rank idx shape + m ≤ shapeSize shape * m := by
  have := rank_lt h
  have h2 : m * (rank idx shape + 1) ≤ m * shapeSize shape := Nat.mul_le_mul_left _ this
  rw [Nat.mul_add, Nat.mul_one] at h2
  rw [Nat.mul_comm (shapeSize shape)]
  exact h2

theorem rank_apart {m a b : Nat} (h : a ≠ b) : m * a + m ≤ m * b ∨ m * b + m ≤ m * a := by
  rcases Nat.lt_or_gt_of_ne h with h | h
  · left
    have : m * (a + 1) ≤ m * b := Nat.mul_le_mul_left _ h
    rwa [Nat.mul_add, Nat.mul_one] at this
  · right
    have : m * (b + 1) ≤ m * a := Nat.mul_le_mul_left _ h
    rwa [Nat.mul_add, Nat.mul_one] at this

/-- Writing one element of a C-ordered array sets this element and no other. -/
theorem view_put_elem (v : ShmView) (m : ShmMem) (hs : v.strides = cStrides v.dtype.itemsize v.shape) (ho : v.offset = 0)
    (hl : shapeSize v.shape * v.dtype.itemsize ≤ (m.get v.block).length) {idx} (h : InShape idx v.shape) (x : Bytes) (hx : x.length = v.dtype.itemsize) :
    (v.now (v.put m idx x)).elem idx = x ∧ (∀ j, InShape j v.shape → j ≠ idx → (v.now (v.put m idx x)).elem j = (v.now m).elem j) ∧
    ((v.put m idx x).get v.block).length = (m.get v.block).length ∧ ∀ c, c ≠ v.block → (v.put m idx x).get c = m.get c := by
  have hb : v.dtype.itemsize * rank idx v.shape + x.length ≤ (m.get v.block).length := by
    have := rank_bound h v.dtype.itemsize
    omega
  refine ⟨?_, fun j hj hne => ?_, ?_, fun c hc => ?_⟩
  · rw [view_elem v _ hs ho h, view_put v m hs ho h, shm_get_set]
    have := readBytes_put_same (m.get v.block) (v.dtype.itemsize * rank idx v.shape) x hb
    rwa [hx] at this
  · rw [view_elem v _ hs ho hj, view_elem v _ hs ho hj, view_put v m hs ho h, shm_get_set]
    apply readBytes_put_other _ _ _ _ _ hb
    rw [hx]
    exact rank_apart fun he => hne (rank_inj hj h he)
  · rw [view_put v m hs ho h, shm_get_set]
    exact putBytes_length _ _ _ hb
  · rw [view_put v m hs ho h, shm_get_other _ _ _ _ hc]

/-- Assigning all elements. -/
theorem view_assign (v : ShmView) (m : ShmMem) (hs : v.strides = cStrides v.dtype.itemsize v.shape) (ho : v.offset = 0)
    (hl : shapeSize v.shape * v.dtype.itemsize ≤ (m.get v.block).length) (f : List Nat → Bytes) (hf : ∀ idx, (f idx).length = v.dtype.itemsize) :
    (∀ idx, InShape idx v.shape → (v.now (v.assign m f)).elem idx = f idx) ∧ ((v.assign m f).get v.block).length = (m.get v.block).length ∧
    ∀ c, c ≠ v.block → (v.assign m f).get c = m.get c := by
  have key : ∀ (l : List (List Nat)) (m : ShmMem), (∀ i ∈ l, InShape i v.shape) → shapeSize v.shape * v.dtype.itemsize ≤ (m.get v.block).length →
      (∀ idx, InShape idx v.shape → (idx ∈ l ∨ (v.now m).elem idx = f idx) → (v.now (l.foldl (fun m idx => v.put m idx (f idx)) m)).elem idx = f idx) ∧
      ((l.foldl (fun m idx => v.put m idx (f idx)) m).get v.block).length = (m.get v.block).length ∧
      ∀ c, c ≠ v.block → (l.foldl (fun m idx => v.put m idx (f idx)) m).get c = m.get c := by
    intro l
    induction l with
    | nil => intro m _ _; exact ⟨fun idx _ h => by simpa using h, rfl, fun _ _ => rfl⟩
    | cons i l ih =>
      intro m hi hl
      obtain ⟨h1, h2, h3, h4⟩ := view_put_elem v m hs ho hl (hi i (by simp)) (f i) (hf i)
      obtain ⟨k1, k2, k3⟩ := ih (v.put m i (f i)) (fun j hj => hi j (by simp [hj])) (by rw [h3]; exact hl)
      refine ⟨fun idx hidx h => ?_, k2.trans h3, fun c hc => (k3 c hc).trans (h4 c hc)⟩
      refine k1 idx hidx ?_
      by_cases he : idx = i
      · subst he; exact .inr h1
      · rcases h with h | h
        · simp only [List.mem_cons, he, false_or] at h; exact .inl h
        · right; rw [h2 idx hidx he]; exact h
  obtain ⟨k1, k2, k3⟩ := key (indices v.shape) m (fun i hi => mem_indices.1 hi) hl
  exact ⟨fun idx h => k1 idx h (.inl (mem_indices.2 h)), k2, k3⟩

theorem fresh_not_mem (m : ShmMem) : ∀ p ∈ m.blocks, p.1 ≠ m.fresh := by
  intro p hp
  have : ∀ (l : List Nat) (x : Nat), x ∈ l → x ≤ l.foldr max 0 := by
    intro l
    induction l with
    | nil => simp
    | cons a l ih =>
      intro x hx
      simp only [List.mem_cons] at hx
      simp only [List.foldr_cons]
      rcases hx with rfl | hx
      · omega
      · have := ih x hx; omega
  have := this (m.blocks.map (·.1)) p.1 (List.mem_map_of_mem hp)
  simp only [ShmMem.fresh]
  omega

/-- Dimensions greater than zero. -/
theorem shapeSize_pos {shape : List Nat} (h : ∀ n ∈ shape, 0 < n) : 0 < shapeSize shape := by
  induction shape with
  | nil => decide
  | cons n ns ih =>
    rw [shapeSize_cons]
    exact Nat.mul_pos (h n (by simp)) (ih fun x hx => h x (by simp [hx]))

theorem shapeSize_zero {shape : List Nat} (h : 0 ∈ shape) : shapeSize shape = 0 := by
  induction shape with
  | nil => simp at h
  | cons n ns ih =>
    rw [shapeSize_cons]
    rcases List.mem_cons.1 h with h | h
    · rw [← h, Nat.zero_mul]
    · rw [ih h, Nat.mul_zero]

/-- **C61** For every array with at least one dimension and no dimension of length zero, whatever its strides and offset, and every state: `copy` makes a shared array with
the dtype, the shape and, at every index, the element of the array, in a new block. No other block changes. -/
theorem C61_copy_partial (s : ShmSt) (a : NdArray) (close : Bool) (h1 : a.shape ≠ []) (h2 : ∀ n ∈ a.shape, 0 < n) (h3 : 0 < a.dtype.itemsize) :
    ∃ r s', s.copy a close = .ok (r, s') ∧ SameArray a (r.view.now s'.mem) ∧ r.close = close ∧ (∀ p ∈ s.mem.blocks, p.1 ≠ r.view.block) ∧
      (∀ c, c ≠ r.view.block → s'.mem.get c = s.mem.get c) ∧ s'.all = s.all ++ [r.view.block] := by
  have hn : shapeSize a.shape * a.dtype.itemsize ≠ 0 := by
    have := Nat.mul_pos (shapeSize_pos h2) h3
    omega
  simp only [ShmSt.copy, ShmMem.create, if_neg hn, npNdarray, Nat.le_refl, if_true, if_neg h1]
  have key := view_assign ⟨s.mem.fresh, a.dtype, a.shape, cStrides a.dtype.itemsize a.shape, 0⟩
    (s.mem.set s.mem.fresh (List.replicate (shapeSize a.shape * a.dtype.itemsize) 0)) rfl rfl
    (by simp [shm_get_set]) a.elem (fun idx => elem_length a idx)
  refine ⟨_, _, rfl, ⟨rfl, rfl, key.1⟩, rfl, fresh_not_mem s.mem, fun c hc => ?_, rfl⟩
  exact (key.2.2 c hc).trans (shm_get_other _ _ _ _ hc)

/-- `zeros` likewise. -/
theorem C61_zeros_partial (s : ShmSt) (shape : List Nat) (dt : DType) (close : Bool) (h1 : shape ≠ []) (h2 : ∀ n ∈ shape, 0 < n) (h3 : 0 < dt.itemsize) :
    ∃ r s', s.zeros shape dt close = .ok (r, s') ∧ r.view.shape = shape ∧ r.view.dtype = dt ∧
      (∀ idx, InShape idx shape → (r.view.now s'.mem).elem idx = List.replicate dt.itemsize 0) ∧ r.close = close ∧ (∀ p ∈ s.mem.blocks, p.1 ≠ r.view.block) ∧
      (∀ c, c ≠ r.view.block → s'.mem.get c = s.mem.get c) := by
  have hn : shapeSize shape * dt.itemsize ≠ 0 := by
    have := Nat.mul_pos (shapeSize_pos h2) h3
    omega
  simp only [ShmSt.zeros, ShmMem.create, if_neg hn, npNdarray, Nat.le_refl, if_true, if_neg h1]
  have key := view_assign ⟨s.mem.fresh, dt, shape, cStrides dt.itemsize shape, 0⟩
    (s.mem.set s.mem.fresh (List.replicate (shapeSize shape * dt.itemsize) 0)) rfl rfl
    (by simp [shm_get_set]) (fun _ => List.replicate dt.itemsize 0) (fun idx => by simp)
  exact ⟨_, _, rfl, rfl, rfl, key.1, rfl, fresh_not_mem s.mem, fun c hc => (key.2.2 c hc).trans (shm_get_other _ _ _ _ hc)⟩

/-- **C61 fails** for arrays without dimensions: IndexError (`copy`), TypeError (`zeros`). -/
theorem C61_fails_scalar (s : ShmSt) (a : NdArray) (close : Bool) (h : a.shape = []) (h3 : 0 < a.dtype.itemsize) (dt : DType) :
    s.copy a close = .error .indexError ∧ s.zeros [] dt close = .error .typeError := by
  have hn : shapeSize a.shape * a.dtype.itemsize ≠ 0 := by
    rw [h]
    simp only [shapeSize, List.foldr_nil]
    omega
  simp only [ShmSt.copy, ShmMem.create, if_neg hn, npNdarray, Nat.le_refl, if_true, if_pos h]
  exact ⟨trivial, rfl⟩

/-- **C61 fails** for arrays without elements: ValueError. -/
theorem C61_fails_empty (s : ShmSt) (a : NdArray) (close : Bool) (h : 0 ∈ a.shape) (dt : DType) :
    s.copy a close = .error .valueError ∧ s.zeros a.shape dt close = .error .valueError := by
  have hne : a.shape ≠ [] := by intro h'; rw [h'] at h; simp at h
  have hz := shapeSize_zero h
  simp [ShmSt.copy, ShmSt.zeros, ShmMem.create, hz, hne]

theorem strideBounds_c (m : Nat) (hm : 0 < m) {shape : List Nat} (h : ∀ n ∈ shape, 0 < n) :
    strideBounds shape (cStrides m shape) = (0, ((m * shapeSize shape : Nat) : Int) - m) := by
  induction shape with
  | nil => simp [strideBounds, shapeSize]
  | cons n ns ih =>
    have hn := h n (by simp)
    have hp := shapeSize_pos (fun x hx => h x (by simp [hx]) : ∀ x ∈ ns, 0 < x)
    have hs : (0 : Int) < ((m * shapeSize ns : Nat) : Int) := by have := Nat.mul_pos hm hp; omega
    simp only [strideBounds, cStrides, ih (fun x hx => h x (by simp [hx])), if_neg (show ¬ n = 0 by omega), if_pos hs, Prod.mk.injEq, true_and, shapeSize_cons]
    push_cast
    rw [Int.mul_sub, Int.mul_one]
    have : (m : Int) * ((n : Int) * (shapeSize ns : Int)) = (m : Int) * (shapeSize ns : Int) * (n : Int) := by rw [Int.mul_comm (n : Int), Int.mul_assoc]
    rw [this]
    omega

/-- **C61** What is restored in another process from the pickled form of a copy (or of zeros) is the same window on the same block: whatever is written later, by whom ever, both
read the same at every index. -/
theorem C61_restored (r : SharedArr) (hs : r.view.strides = cStrides r.view.dtype.itemsize r.view.shape) (ho : r.view.offset = 0) (h2 : ∀ n ∈ r.view.shape, 0 < n)
    (h3 : 0 < r.view.dtype.itemsize) (t : ShmSt) (hl : shapeSize r.view.shape * r.view.dtype.itemsize ≤ (t.mem.get r.view.block).length) :
    ∃ r' t', t.reload r.reduce = .ok (r', t') ∧ t'.mem = t.mem ∧ ∀ m idx, (r'.view.now m).elem idx = (r.view.now m).elem idx := by
  obtain ⟨⟨block, dt, shape, strides, offset⟩, close⟩ := r
  simp only at hs ho h2 h3 hl
  subst hs ho
  have hb := strideBounds_c dt.itemsize h3 h2
  have hlen : (cStrides dt.itemsize shape).length = shape.length := by
    clear hb hl h2
    induction shape with
    | nil => rfl
    | cons n ns ih => simp [cStrides, ih]
  have hc : (0 : Int) ≤ (strideBounds shape (cStrides dt.itemsize shape)).1 ∧
      (strideBounds shape (cStrides dt.itemsize shape)).2 + dt.itemsize ≤ (t.mem.get block).length := by
    rw [hb]
    rw [Nat.mul_comm] at hl
    simp only
    omega
  refine ⟨⟨⟨block, dt, shape, cStrides dt.itemsize shape, 0⟩, false⟩, { t with all := t.all ++ [block] }, ?_, rfl, fun _ _ => rfl⟩
  have hnp : npNdarray block (t.mem.get block).length dt shape (some (cStrides dt.itemsize shape)) = .ok ⟨block, dt, shape, cStrides dt.itemsize shape, 0⟩ := by
    simp only [npNdarray, hlen, ne_eq, not_true_eq_false, if_false]
    rw [if_pos (.inr hc)]
  simp only [ShmSt.reload, SharedArr.reduce]
  erw [hnp]
  rfl

/-- **C61** from end to end: copy here, pickle, restore there: the restored array holds the elements; and what one process writes at an index, the other reads there. -/
theorem C61_shared_partial (s : ShmSt) (a : NdArray) (close : Bool) (h1 : a.shape ≠ []) (h2 : ∀ n ∈ a.shape, 0 < n) (h3 : 0 < a.dtype.itemsize) :
    ∃ r s' r', ∃ s'' : ShmSt, s.copy a close = .ok (r, s') ∧ (∀ all, ∃ x, ShmSt.reload ⟨s'.mem, all⟩ r.reduce = .ok (r', x) ∧ x.mem = s''.mem) ∧
      SameArray a (r'.view.now s''.mem) ∧
      ∀ idx x, InShape idx a.shape → x.length = a.dtype.itemsize → (r.view.now (r'.view.put s''.mem idx x)).elem idx = x ∧
        (r'.view.now (r.view.put s''.mem idx x)).elem idx = x := by
  have hn : shapeSize a.shape * a.dtype.itemsize ≠ 0 := by
    have := Nat.mul_pos (shapeSize_pos h2) h3
    omega
  have hcopy : s.copy a close = .ok (ShmSt.wrap { s with mem := (ShmView.assign ⟨s.mem.fresh, a.dtype, a.shape, cStrides a.dtype.itemsize a.shape, 0⟩
        (s.mem.set s.mem.fresh (List.replicate (shapeSize a.shape * a.dtype.itemsize) 0)) a.elem) }
        ⟨s.mem.fresh, a.dtype, a.shape, cStrides a.dtype.itemsize a.shape, 0⟩ close) := by
    simp only [ShmSt.copy, ShmMem.create, if_neg hn, npNdarray, Nat.le_refl, if_true, if_neg h1]
  have key := view_assign ⟨s.mem.fresh, a.dtype, a.shape, cStrides a.dtype.itemsize a.shape, 0⟩
    (s.mem.set s.mem.fresh (List.replicate (shapeSize a.shape * a.dtype.itemsize) 0)) rfl rfl
    (by simp [shm_get_set]) a.elem (fun idx => elem_length a idx)
  have hlen : shapeSize a.shape * a.dtype.itemsize ≤ ((ShmView.assign ⟨s.mem.fresh, a.dtype, a.shape, cStrides a.dtype.itemsize a.shape, 0⟩
      (s.mem.set s.mem.fresh (List.replicate (shapeSize a.shape * a.dtype.itemsize) 0)) a.elem).get s.mem.fresh).length := by
    have := key.2.1
    simp only at this
    rw [this, shm_get_set]
    simp
  generalize hM : ShmView.assign ⟨s.mem.fresh, a.dtype, a.shape, cStrides a.dtype.itemsize a.shape, 0⟩
      (s.mem.set s.mem.fresh (List.replicate (shapeSize a.shape * a.dtype.itemsize) 0)) a.elem = M at hcopy key hlen
  refine ⟨_, _, ⟨⟨s.mem.fresh, a.dtype, a.shape, cStrides a.dtype.itemsize a.shape, 0⟩, false⟩, ⟨M, []⟩, hcopy, fun all => ?_, ⟨rfl, rfl, key.1⟩, fun idx x hi hx => ?_⟩
  · have hb := strideBounds_c a.dtype.itemsize h3 h2
    have hsl : (cStrides a.dtype.itemsize a.shape).length = a.shape.length := by
      generalize a.shape = shape
      induction shape with
      | nil => rfl
      | cons n ns ih => simp [cStrides, ih]
    have hc : (0 : Int) ≤ (strideBounds a.shape (cStrides a.dtype.itemsize a.shape)).1 ∧
        (strideBounds a.shape (cStrides a.dtype.itemsize a.shape)).2 + a.dtype.itemsize ≤ (M.get s.mem.fresh).length := by
      rw [hb]
      rw [Nat.mul_comm] at hlen
      simp only
      omega
    refine ⟨⟨M, all ++ [s.mem.fresh]⟩, ?_, rfl⟩
    have hnp : npNdarray s.mem.fresh (M.get s.mem.fresh).length a.dtype a.shape (some (cStrides a.dtype.itemsize a.shape)) =
        .ok ⟨s.mem.fresh, a.dtype, a.shape, cStrides a.dtype.itemsize a.shape, 0⟩ := by
      simp only [npNdarray, hsl, ne_eq, not_true_eq_false, if_false]
      rw [if_pos (.inr hc)]
    simp only [ShmSt.reload, SharedArr.reduce, ShmSt.wrap]
    erw [hnp]
  · have := (view_put_elem ⟨s.mem.fresh, a.dtype, a.shape, cStrides a.dtype.itemsize a.shape, 0⟩ M rfl rfl hlen hi x hx).1
    exact ⟨this, this⟩

/-- An array of two rows, stored with its columns first. -/
def Ex.fortran : NdArray := ⟨⟨"<u2", 2, .integer, true⟩, [2, 2], [2, 4], 0, [1, 0, 2, 0, 3, 0, 4, 0], none⟩

example : (match ShmSt.copy {} Ex.fortran true with | .ok (_, s) => s.mem.blocks | _ => []) = [(1, [1, 0, 3, 0, 2, 0, 4, 0])] := by decide +kernel

/-- The bounds are displacements of elements. -/
theorem strideBounds_attained {shape : List Nat} {strides : List Int} (hl : strides.length = shape.length) (h : ∀ n ∈ shape, 0 < n) :
    (∃ idx, InShape idx shape ∧ dot idx strides = (strideBounds shape strides).1) ∧ ∃ idx, InShape idx shape ∧ dot idx strides = (strideBounds shape strides).2 := by
  induction shape generalizing strides with
  | nil =>
    cases strides with
    | nil => exact ⟨⟨[], trivial, rfl⟩, ⟨[], trivial, rfl⟩⟩
    | cons _ _ => cases hl
  | cons n shape ih =>
    cases strides with
    | nil => cases hl
    | cons st strides =>
      obtain ⟨⟨i, hi, di⟩, ⟨j, hj, dj⟩⟩ := ih (Nat.succ.inj hl) (fun m hm => h m (List.mem_cons_of_mem _ hm))
      have hn := h n List.mem_cons_self
      have hn0 : n ≠ 0 := by omega
      have hc : ((n - 1 : Nat) : Int) = (n : Int) - 1 := by omega
      have hlast : ∀ k, dot ((n - 1) :: k) (st :: strides) = st * ((n : Int) - 1) + dot k strides := by
        intro k
        rw [dot, hc, Int.mul_comm]
      have hfirst : ∀ k, dot (0 :: k) (st :: strides) = dot k strides := by
        intro k
        rw [dot]
        simp
      simp only [strideBounds, if_neg hn0]
      split
      · exact ⟨⟨0 :: i, ⟨hn, hi⟩, by rw [hfirst, di]⟩, ⟨(n - 1) :: j, ⟨by omega, hj⟩, by rw [hlast, dj]; simp only; omega⟩⟩
      · exact ⟨⟨(n - 1) :: i, ⟨by omega, hi⟩, by rw [hlast, di]; simp only; omega⟩, ⟨0 :: j, ⟨hn, hj⟩, by rw [hfirst, dj]⟩⟩

/-- **C61** What is restored from the pickled form of any shared array whose data begin with its block, whatever its strides (transposed, reversed, with gaps, broadcast) and shape, is the
same window on the same block. -/
theorem C61_restored_any (r : SharedArr) (ho : r.view.offset = 0) (hl : r.view.strides.length = r.view.shape.length) (t : ShmSt)
    (hin : ∀ idx, InShape idx r.view.shape → 0 ≤ dot idx r.view.strides ∧ dot idx r.view.strides + r.view.dtype.itemsize ≤ (t.mem.get r.view.block).length) :
    ∃ r' t', t.reload r.reduce = .ok (r', t') ∧ t'.mem = t.mem ∧ r'.view = r.view := by
  obtain ⟨⟨block, dt, shape, strides, offset⟩, close⟩ := r
  subst ho
  simp only at hl hin
  have hc : shape.any (· = 0) = true ∨ (0 ≤ (strideBounds shape strides).1 ∧ (strideBounds shape strides).2 + dt.itemsize ≤ (t.mem.get block).length) := by
    by_cases hz : shape.any (· = 0) = true
    · exact .inl hz
    · right
      have h0 : ∀ n ∈ shape, 0 < n := by
        intro n hn
        apply Nat.pos_of_ne_zero
        intro h0
        exact hz (List.any_eq_true.mpr ⟨n, hn, by simp [h0]⟩)
      obtain ⟨⟨i, hi, di⟩, ⟨j, hj, dj⟩⟩ := strideBounds_attained hl h0
      exact ⟨di ▸ (hin i hi).1, dj ▸ (hin j hj).2⟩
  refine ⟨⟨⟨block, dt, shape, strides, 0⟩, false⟩, { t with all := t.all ++ [block] }, ?_, rfl, rfl⟩
  have hnp : npNdarray block (t.mem.get block).length dt shape (some strides) = .ok ⟨block, dt, shape, strides, 0⟩ := by
    simp only [npNdarray]
    rw [if_neg (by omega), if_pos hc]
  rw [ShmSt.reload, SharedArr.reduce]
  erw [hnp]
  rfl

/-- A transposed array. -/
example : ∃ r' t', ShmSt.reload ⟨⟨[(1, [1, 2, 3, 4, 5, 6])]⟩, []⟩ (SharedArr.reduce ⟨⟨1, ⟨"u1", 1, .integer, true⟩, [3, 2], [1, 3], 0⟩, true⟩) = .ok (r', t') ∧
    (r'.view.now t'.mem).elem [1, 1] = [5] := ⟨_, _, rfl, by decide +kernel⟩

/-- **C61 fails** for a shared array that does not begin at the start of its block: the pickled form has no offset, the restored array reads other elements. -/
theorem C61_fails_offset : ∃ (s : ShmSt) (r : SharedArr) (r' : SharedArr) (s' : ShmSt), s.reload r.reduce = .ok (r', s') ∧
    (r.view.now s.mem).elem [0] = [7] ∧ (r'.view.now s'.mem).elem [0] = [5] :=
  ⟨⟨⟨[(1, [5, 7])]⟩, [1]⟩, ⟨⟨1, ⟨"u1", 1, .integer, true⟩, [1], [1], 1⟩, true⟩, ⟨⟨1, ⟨"u1", 1, .integer, true⟩, [1], [1], 0⟩, false⟩, ⟨⟨[(1, [5, 7])]⟩, [1, 1]⟩,
    by decide +kernel, by decide +kernel, by decide +kernel⟩

/-! ## C62 -/

theorem closeBlocks_ok (unlink : Nat → Except Exc Unit) (l : List Nat) (h : ∀ b ∈ l, unlink b = .ok () ∨ unlink b = .error (.other "FileNotFoundError")) :
    (closeBlocks unlink l).2 = none ∧ (∀ b, .closed b ∈ (closeBlocks unlink l).1 ↔ b ∈ l) ∧
    (∀ b, .unlinked b ∈ (closeBlocks unlink l).1 ↔ b ∈ l ∧ unlink b = .ok ()) := by
  induction l with
  | nil => simp [closeBlocks]
  | cons b l ih =>
    obtain ⟨h1, h2, h3⟩ := ih fun x hx => h x (by simp [hx])
    rcases h b (by simp) with hb | hb
    · simp only [closeBlocks, hb]
      refine ⟨h1, fun x => by simp [h2], fun x => ?_⟩
      simp only [List.mem_cons, reduceCtorEq, ShmAct.unlinked.injEq, false_or, h3]
      constructor
      · rintro (rfl | h)
        · exact ⟨.inl rfl, hb⟩
        · exact ⟨.inr h.1, h.2⟩
      · rintro ⟨rfl | h, h'⟩
        · exact .inl rfl
        · exact .inr ⟨h, h'⟩
    · simp only [closeBlocks, hb]
      refine ⟨h1, fun x => by simp [h2], fun x => ?_⟩
      simp only [List.mem_cons, reduceCtorEq, false_or, h3]
      constructor
      · exact fun h => ⟨.inr h.1, h.2⟩
      · rintro ⟨rfl | h, h'⟩
        · rw [hb] at h'; cases h'
        · exact ⟨h, h'⟩

/-- What `close_all` does, for every list of blocks: it closes and unlinks (if they still exist) all of them, whatever was requested, and forgets them. -/
theorem C62_all (s : ShmSt) (unlink : Nat → Except Exc Unit) (h : ∀ b ∈ s.all, unlink b = .ok () ∨ unlink b = .error (.other "FileNotFoundError")) :
    (∀ b, .closed b ∈ (s.closeAll unlink).1 ↔ b ∈ s.all) ∧ (∀ b, .unlinked b ∈ (s.closeAll unlink).1 ↔ b ∈ s.all ∧ unlink b = .ok ()) ∧
    (s.closeAll unlink).2.1 = none ∧ (s.closeAll unlink).2.2.all = [] := by
  obtain ⟨h1, h2, h3⟩ := closeBlocks_ok unlink s.all h
  cases hc : closeBlocks unlink s.all with
  | mk acts e =>
    rw [hc] at h1 h2 h3
    simp only at h1 h2 h3
    subst h1
    simp only [ShmSt.closeAll, hc]
    exact ⟨h2, h3, by trivial, by trivial⟩

/-- **C62 fails**: a copy made with `close=False` is unlinked, for every array that can be copied. -/
theorem C62_fails (s : ShmSt) (a : NdArray) (r s') (h : s.copy a false = .ok (r, s')) (unlink : Nat → Except Exc Unit) (hu : ∀ b, unlink b = .ok ()) :
    r.close = false ∧ .unlinked r.view.block ∈ (s'.closeAll unlink).1 := by
  have hall := C62_all s' unlink (fun b _ => .inl (hu b))
  simp only [ShmSt.copy] at h
  split at h
  · cases h
  · split at h
    · cases h
    · split at h
      · cases h
      · simp only [ShmSt.wrap, Except.ok.injEq, Prod.mk.injEq] at h
        obtain ⟨rfl, rfl⟩ := h
        exact ⟨rfl, (hall.2.1 _).2 ⟨by simp, hu _⟩⟩

/-- **C62 fails**: so is the block of an array that was only restored here and belongs to another process. -/
theorem C62_fails_restored (s : ShmSt) (p) (r s') (h : s.reload p = .ok (r, s')) (unlink : Nat → Except Exc Unit) (hu : ∀ b, unlink b = .ok ()) :
    r.close = false ∧ .unlinked r.view.block ∈ (s'.closeAll unlink).1 := by
  have hall := C62_all s' unlink (fun b _ => .inl (hu b))
  simp only [ShmSt.reload] at h
  split at h
  · cases h
  · simp only [ShmSt.wrap, Except.ok.injEq, Prod.mk.injEq] at h
    obtain ⟨rfl, rfl⟩ := h
    exact ⟨rfl, (hall.2.1 _).2 ⟨by simp, hu _⟩⟩

/-- What is right about C62: what was made with `close=True` is closed and unlinked; and nothing is closed that was not wrapped in this process. -/
theorem C62_partial (s : ShmSt) (a : NdArray) (r s') (h : s.copy a true = .ok (r, s')) (unlink : Nat → Except Exc Unit) (hu : ∀ b, unlink b = .ok ()) :
    .closed r.view.block ∈ (s'.closeAll unlink).1 ∧ .unlinked r.view.block ∈ (s'.closeAll unlink).1 ∧
    ∀ b, .closed b ∈ (s'.closeAll unlink).1 ∨ .unlinked b ∈ (s'.closeAll unlink).1 → b = r.view.block ∨ b ∈ s.all := by
  have hall := C62_all s' unlink (fun b _ => .inl (hu b))
  simp only [ShmSt.copy] at h
  split at h
  · cases h
  · split at h
    · cases h
    · split at h
      · cases h
      · simp only [ShmSt.wrap, Except.ok.injEq, Prod.mk.injEq] at h
        obtain ⟨rfl, rfl⟩ := h
        refine ⟨(hall.1 _).2 (by simp), (hall.2.1 _).2 ⟨by simp, hu _⟩, fun b hb => ?_⟩
        rw [hall.1, hall.2.1] at hb
        simp only [List.mem_append, List.mem_singleton, hu, and_true, or_self] at hb
        exact hb.symm

/-- An exception of `unlink` other than FileNotFoundError ends the loop: later blocks stay. -/
example : (ShmSt.closeAll ⟨{}, [1, 2]⟩ fun b => if b = 1 then .error (.other "PermissionError") else .ok ()).1 = [.closed 1] := by decide

example : ∃ r s', ShmSt.copy {} Ex.fortran false = .ok (r, s') := by
  obtain ⟨r, s', h, -⟩ := C61_copy_partial {} Ex.fortran false (by decide) (by decide) (by decide)
  exact ⟨r, s', h⟩

namespace Ex

/-! ## The theorems on these cases -/

/-- The dtype of the array. -/
def i2 : DType := fortran.dtype
example := C61_zeros_partial {} [2, 3] i2 true (by decide) (by decide) (by decide)
example := C61_fails_scalar {} { fortran with shape := [], strides := [] } true rfl (by decide) i2
example := C61_fails_empty {} { fortran with shape := [2, 0], strides := [0, 0] } true (by decide) i2
/-- A 2×2 array of 2-byte elements in block 1. -/
def square : SharedArr := ⟨⟨1, i2, [2, 2], cStrides i2.itemsize [2, 2], 0⟩, true⟩
def squareSt : ShmSt := ⟨⟨[(1, [1, 0, 3, 0, 2, 0, 4, 0])]⟩, []⟩
example := C61_restored square rfl rfl (by decide) (by decide) squareSt (by decide)
example := C61_shared_partial {} fortran true (by decide) (by decide) (by decide)
/-- Its transpose. -/
def transpose : SharedArr := ⟨⟨1, i2, [2, 2], (cStrides i2.itemsize [2, 2]).reverse, 0⟩, true⟩
example := C61_restored_any transpose rfl rfl squareSt (by
  intro idx h
  match idx, h with
  | [i, j], h =>
    simp only [transpose, InShape] at h
    have hs : transpose.view.strides = [2, 4] := by decide
    have hl : (squareSt.mem.get transpose.view.block).length = 8 := by decide
    have hi : (transpose.view.dtype.itemsize : Int) = 2 := by decide
    rw [hs, hl, hi]
    simp only [dot]
    omega)
/-- Block 1 was unlinked by another process. -/
example := C62_all ⟨{}, [1, 2]⟩ (fun b => if b = 1 then .error (.other "FileNotFoundError") else .ok ()) (by decide)
theorem fortran_copied (close : Bool) : ∃ r s', ShmSt.copy {} fortran close = .ok (r, s') := by
  obtain ⟨r, s', h, -⟩ := C61_copy_partial {} fortran close (by decide) (by decide) (by decide)
  exact ⟨r, s', h⟩
example := C62_fails {} fortran _ _ (fortran_copied false).choose_spec.choose_spec (fun _ => .ok ()) (fun _ => rfl)
theorem square_reloaded : ∃ r s', squareSt.reload square.reduce = .ok (r, s') := ⟨_, _, rfl⟩
example := C62_fails_restored squareSt square.reduce _ _ square_reloaded.choose_spec.choose_spec (fun _ => .ok ()) (fun _ => rfl)
example := C62_partial {} fortran _ _ (fortran_copied true).choose_spec.choose_spec (fun _ => .ok ()) (fun _ => rfl)

end Ex

end Verif
