import Verif.Spec.Transport
/-! # Lemmas about arrays -/
namespace Verif

/-- position of a multi-index in C order -/
def rank : List Nat → List Nat → Nat
  | i :: is, _ :: ns => i * shapeSize ns + rank is ns
  | _, _ => 0

theorem shapeSize_cons (n : Nat) (ns : List Nat) : shapeSize (n :: ns) = n * shapeSize ns := rfl

theorem mem_indices {shape idx : List Nat} : idx ∈ indices shape ↔ InShape idx shape := by
  induction shape generalizing idx with
  | nil => cases idx <;> simp [indices, InShape]
  | cons n ns ih =>
    simp only [indices, List.mem_flatMap, List.mem_range, List.mem_map]
    constructor
    · rintro ⟨i, hi, is, his, rfl⟩
      exact ⟨hi, ih.1 his⟩
    · intro h
      cases idx with
      | nil => exact h.elim
      | cons i is => exact ⟨i, h.1, is, ih.2 h.2, rfl⟩

theorem indices_length (shape : List Nat) : (indices shape).length = shapeSize shape := by
  induction shape with
  | nil => rfl
  | cons n ns ih =>
    simp only [indices, shapeSize_cons, List.length_flatMap, List.length_map, ih]
    induction n with
    | zero => simp
    | succ n ihn => rw [List.range_succ, List.map_append, List.sum_append, ihn, Nat.add_mul]; simp

theorem rank_lt {shape idx : List Nat} (h : InShape idx shape) : rank idx shape < shapeSize shape := by
  induction shape generalizing idx with
  | nil => cases idx <;> simp_all [InShape, rank, shapeSize]
  | cons n ns ih =>
    cases idx with
    | nil => exact h.elim
    | cons i is =>
      have := ih h.2
      simp only [rank, shapeSize_cons]
      have h1 : i + 1 ≤ n := h.1
      have h2 : (i + 1) * shapeSize ns ≤ n * shapeSize ns := Nat.mul_le_mul_right _ h1
      rw [Nat.add_mul] at h2
      omega

/-- flattening blocks of equal length -/
theorem flatMap_getElem? {α β} (l : List α) (f : α → List β) (m : Nat) (hf : ∀ a ∈ l, (f a).length = m)
    (i k : Nat) (hk : k < m) : (l.flatMap f)[i * m + k]? = l[i]?.bind (fun a => (f a)[k]?) := by
  induction l generalizing i with
  | nil => simp
  | cons a l ih =>
    have ha : (f a).length = m := hf a (by simp)
    simp only [List.flatMap_cons]
    cases i with
    | zero => simp [List.getElem?_append, ha, hk]
    | succ i =>
      have : (i + 1) * m + k = (f a).length + (i * m + k) := by rw [ha, Nat.add_mul]; omega
      rw [this, List.getElem?_append_right (by omega)]
      simp only [Nat.add_sub_cancel_left, List.getElem?_cons_succ]
      exact ih (fun b hb => hf b (by simp [hb])) i

theorem indices_getElem? {shape idx : List Nat} (h : InShape idx shape) :
    (indices shape)[rank idx shape]? = some idx := by
  induction shape generalizing idx with
  | nil => cases idx <;> simp_all [InShape, rank, indices]
  | cons n ns ih =>
    cases idx with
    | nil => exact h.elim
    | cons i is =>
      simp only [indices, rank]
      rw [flatMap_getElem? (m := shapeSize ns)]
      · simp [h.1, ih h.2]
      · simp [indices_length]
      · exact rank_lt h.2

theorem flatMap_length_const {α β} (l : List α) (f : α → List β) (m : Nat) (hf : ∀ a ∈ l, (f a).length = m) :
    (l.flatMap f).length = l.length * m := by
  induction l with
  | nil => simp
  | cons a l ih =>
    simp only [List.flatMap_cons, List.length_append, List.length_cons, hf a (by simp)]
    rw [ih (fun b hb => hf b (by simp [hb])), Nat.add_mul]; omega

theorem elem_length (a : NdArray) (idx : List Nat) : (a.elem idx).length = a.dtype.itemsize := by
  simp [NdArray.elem]

theorem tobytes_length (a : NdArray) : a.tobytes.length = shapeSize a.shape * a.dtype.itemsize := by
  rw [NdArray.tobytes, flatMap_length_const _ _ a.dtype.itemsize (fun _ _ => elem_length _ _), indices_length]

theorem dot_cStrides (m : Nat) {shape idx : List Nat} (h : InShape idx shape) :
    dot idx (cStrides m shape) = ((m * rank idx shape : Nat) : Int) := by
  induction shape generalizing idx with
  | nil => cases idx <;> simp_all [InShape, rank, dot]
  | cons n ns ih =>
    cases idx with
    | nil => exact h.elim
    | cons i is =>
      simp only [dot, cStrides, rank, ih h.2]
      push_cast
      rw [Int.mul_add, Int.mul_left_comm]

/-- C-ordered array over the bytes of `a` -/
def NdArray.packed (a : NdArray) : NdArray :=
  { dtype := a.dtype, shape := a.shape, strides := cStrides a.dtype.itemsize a.shape, offset := 0,
    buf := a.tobytes, sub := none }

theorem packed_elem (a : NdArray) {idx : List Nat} (h : InShape idx a.shape) :
    a.packed.elem idx = a.elem idx := by
  apply List.ext_getElem?
  intro k
  by_cases hk : k < a.dtype.itemsize
  · have h1 : (a.packed.elem idx)[k]? =
        some (byteAt a.tobytes (0 + dot idx (cStrides a.dtype.itemsize a.shape) + (k : Int))) := by
      simp [NdArray.elem, NdArray.packed, hk]
    rw [h1, dot_cStrides _ h]
    have h2 : (0 + ((a.dtype.itemsize * rank idx a.shape : Nat) : Int) + (k : Int)) =
        ((rank idx a.shape * a.dtype.itemsize + k : Nat) : Int) := by
      push_cast; rw [Int.mul_comm]; omega
    rw [h2]
    have h3 : a.tobytes[rank idx a.shape * a.dtype.itemsize + k]? = (a.elem idx)[k]? := by
      rw [NdArray.tobytes, flatMap_getElem? _ _ a.dtype.itemsize (fun _ _ => elem_length _ _) _ _ hk,
        indices_getElem? h]
      rfl
    unfold byteAt
    rw [if_pos (by omega), Int.toNat_natCast, List.getD_eq_getElem?_getD, h3]
    have h4 : k < (a.elem idx).length := by rw [elem_length]; exact hk
    rw [List.getElem?_eq_getElem h4]; rfl
  · rw [List.getElem?_eq_none, List.getElem?_eq_none]
    · rw [elem_length]; omega
    · rw [elem_length]; simp only [NdArray.packed]; omega

theorem fixShape_nat (l : List Nat) : fixShape (shapeSize l) (l.map fun (n : Nat) => (n : Int)) = some l := by
  have h1 : (l.map fun (n : Nat) => (n : Int)).filter (· < 0) = [] := by
    rw [List.filter_eq_nil_iff]; simp
  have h2 : (l.map fun (n : Nat) => (n : Int)).filter (0 ≤ ·) = l.map fun (n : Nat) => (n : Int) := by
    rw [List.filter_eq_self]; simp
  have h3 : (l.map fun (n : Nat) => (n : Int)).map Int.toNat = l := by
    rw [List.map_map]; exact List.map_id'' (fun _ => rfl) l
  unfold fixShape
  rw [h1, h2, h3]
  simp

/-- what the decoder builds from bytes, dtype and shape -/
theorem frombuffer_reshape (a : NdArray) (h0 : a.dtype.itemsize ≠ 0) (ho : a.dtype.kind ≠ .object) :
    (match frombuffer a.tobytes a.dtype with
     | .error e => Except.error e
     | .ok b => b.reshape (a.shape.map fun (n : Nat) => (n : Int))) = .ok a.packed := by
  unfold frombuffer
  rw [if_neg ho, if_neg h0, tobytes_length, if_neg (by simp)]
  have h1 : shapeSize [shapeSize a.shape * a.dtype.itemsize / a.dtype.itemsize] = shapeSize a.shape := by
    rw [Nat.mul_div_cancel _ (by omega)]; simp [shapeSize]
  simp only [NdArray.reshape, h1, fixShape_nat]
  rfl

/-- the copy made for a non-contiguous array has the same bytes -/
theorem elem_congr {a b : NdArray} (_hd : a.dtype = b.dtype) (hs : a.shape = b.shape)
    (he : ∀ idx, InShape idx a.shape → a.elem idx = b.elem idx) : a.tobytes = b.tobytes := by
  unfold NdArray.tobytes
  rw [← hs]
  have h : ∀ idx ∈ indices a.shape, a.elem idx = b.elem idx := fun idx h => he idx (mem_indices.1 h)
  revert h
  generalize indices a.shape = l
  intro h
  induction l with
  | nil => rfl
  | cons x l ih =>
    rw [List.flatMap_cons, List.flatMap_cons, h x (by simp), ih (fun i hi => h i (by simp [hi]))]

theorem ascontiguous_eq (a : NdArray) (h : a.cContiguous = false) : a.ascontiguous = a.packed := by
  unfold NdArray.ascontiguous NdArray.packed
  have : a.shape ≠ [] := by
    intro hc; simp [NdArray.cContiguous, hc, contigAux] at h
  simp [this]

theorem range_flatMap {β} (m : Nat) (f : Nat → β) : ∀ n, (List.range n).flatMap (fun i => (List.range m).map fun j => f (i * m + j)) = (List.range (n * m)).map f
  | 0 => by simp
  | n + 1 => by
    rw [List.range_succ, List.flatMap_append, range_flatMap m f n, Nat.add_mul, Nat.one_mul, List.range_add, List.map_append]
    simp

theorem indices_rank (shape : List Nat) : (indices shape).map (rank · shape) = List.range (shapeSize shape) := by
  induction shape with
  | nil => rfl
  | cons n ns ih =>
    rw [indices, List.map_flatMap, shapeSize_cons]
    have : ∀ i, List.map (rank · (n :: ns)) (List.map (i :: ·) (indices ns)) = (List.range (shapeSize ns)).map fun j => i * shapeSize ns + j := by
      intro i
      rw [← ih, List.map_map, List.map_map]
      rfl
    simp only [this]
    rw [range_flatMap (shapeSize ns) (fun x => x)]
    simp

/-- in a contiguous array the elements follow each other in C order -/
theorem contig_dot {m : Nat} : ∀ {shape : List Nat} {strides : List Int}, (contigAux m shape strides).1 = true →
    (contigAux m shape strides).2 = m * shapeSize shape ∧ ∀ idx, InShape idx shape → dot idx strides = ((m * rank idx shape : Nat) : Int)
  | [], ss, _ => by
    refine ⟨by simp [contigAux, shapeSize], fun idx h => ?_⟩
    cases idx <;> simp_all [InShape, rank, dot]
  | n :: ns, [], h => by simp [contigAux] at h
  | n :: ns, s :: ss, h => by
    simp only [contigAux] at h ⊢
    by_cases hn : n = 1
    · subst hn
      simp only [if_pos] at h ⊢
      obtain ⟨h1, h2⟩ := contig_dot h
      refine ⟨by rw [h1, shapeSize_cons, Nat.one_mul], fun idx hi => ?_⟩
      cases idx with
      | nil => exact hi.elim
      | cons i is =>
        have : i = 0 := by have := hi.1; omega
        subst this
        simp only [dot, rank, h2 is hi.2]
        simp
    · rw [if_neg hn] at h ⊢
      simp only [Bool.and_eq_true, decide_eq_true_eq] at h
      obtain ⟨h1, h2⟩ := contig_dot h.1
      refine ⟨by simp only [h1, shapeSize_cons]; rw [Nat.mul_assoc, Nat.mul_comm (shapeSize ns)], fun idx hi => ?_⟩
      cases idx with
      | nil => exact hi.elim
      | cons i is =>
        simp only [dot, rank, h2 is hi.2, h.2, h1]
        push_cast
        rw [Int.mul_add, Int.mul_left_comm]

theorem shapeSize_any {shape : List Nat} (h : shape.any (· = 0) = true) : shapeSize shape = 0 := by
  induction shape with
  | nil => simp at h
  | cons n ns ih =>
    rw [shapeSize_cons]
    simp only [List.any_cons, Bool.or_eq_true, decide_eq_true_eq] at h
    rcases h with h | h
    · simp [h]
    · rw [ih h, Nat.mul_zero]

/-- the memory of a contiguous array holds its elements in C order -/
theorem memory_tobytes {a : NdArray} (h : a.cContiguous = true) :
    (List.range (shapeSize a.shape * a.dtype.itemsize)).map (fun (k : Nat) => byteAt a.buf (a.offset + k)) = a.tobytes := by
  simp only [NdArray.cContiguous, Bool.or_eq_true] at h
  rcases h with h | h
  · have h1 := tobytes_length a
    rw [shapeSize_any h, Nat.zero_mul] at h1 ⊢
    rw [List.eq_nil_of_length_eq_zero h1]; rfl
  · have hd := (contig_dot h).2
    have h1 : a.tobytes = (indices a.shape).flatMap fun idx => (List.range a.dtype.itemsize).map fun (k : Nat) =>
        byteAt a.buf (a.offset + ((rank idx a.shape * a.dtype.itemsize + k : Nat) : Int)) := by
      unfold NdArray.tobytes
      have : ∀ idx ∈ indices a.shape, a.elem idx = (List.range a.dtype.itemsize).map fun (k : Nat) =>
          byteAt a.buf (a.offset + ((rank idx a.shape * a.dtype.itemsize + k : Nat) : Int)) := by
        intro idx hi
        unfold NdArray.elem
        rw [hd idx (mem_indices.1 hi)]
        apply List.map_congr_left
        intro k _
        congr 1
        push_cast
        rw [Int.mul_comm]
        omega
      generalize indices a.shape = l at this
      induction l with
      | nil => rfl
      | cons x l ih => rw [List.flatMap_cons, List.flatMap_cons, this x (by simp), ih fun i hi => this i (by simp [hi])]
    rw [h1, ← range_flatMap a.dtype.itemsize (fun k => byteAt a.buf (a.offset + (k : Int))), ← indices_rank, List.flatMap_map]

/-- the array whose bytes are sent -/
def NdArray.toSend (a : NdArray) : NdArray := if a.cContiguous then a else a.ascontiguous

theorem toSend_tobytes (a : NdArray) : a.toSend.tobytes = a.tobytes := by
  unfold NdArray.toSend
  split
  · rfl
  · rename_i h
    rw [ascontiguous_eq a (by simpa using h)]
    exact elem_congr rfl rfl (fun idx hi => packed_elem a hi)

theorem toSend_dtype (a : NdArray) : a.toSend.dtype = a.dtype := by
  unfold NdArray.toSend; split <;> rfl

theorem toSend_shape (a : NdArray) : a.toSend.shape = a.shape := by
  unfold NdArray.toSend
  split
  · rfl
  · rename_i h; rw [ascontiguous_eq a (by simpa using h)]; rfl

theorem contig_cStrides (m : Nat) : ∀ shape : List Nat, contigAux m shape (cStrides m shape) = (true, m * shapeSize shape)
  | [] => by simp [contigAux, shapeSize]
  | n :: ns => by
    simp only [cStrides, contigAux, contig_cStrides m ns, shapeSize_cons]
    split
    · rename_i h; simp [h]
    · simp only [Bool.true_and, decide_true, Prod.mk.injEq, true_and]
      rw [Nat.mul_assoc, Nat.mul_comm (shapeSize ns)]

theorem toSend_contiguous (a : NdArray) : a.toSend.cContiguous = true := by
  unfold NdArray.toSend
  split
  · assumption
  · rename_i h
    rw [ascontiguous_eq a (by simpa using h)]
    simp [NdArray.cContiguous, NdArray.packed, contig_cStrides]

/-- the buffer of the array that is sent -/
theorem dataView_toSend (a : NdArray) : a.toSend.dataView = if a.dtype.bufferable then .ok a.tobytes else .error .valueError := by
  unfold NdArray.dataView
  rw [toSend_contiguous, memory_tobytes (toSend_contiguous a), toSend_tobytes, toSend_dtype]
  cases a.dtype.bufferable <;> rfl

end Verif
