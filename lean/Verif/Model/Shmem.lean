import Verif.Model.NdArray
/-!
# Shared arrays

/repo/teleprox/shmem.py. `multiprocessing.shared_memory` and numpy are libraries; they are modelled from their documentation. The dtype holds plain data (no objects).
-/
namespace Verif

/-- Blocks of shared memory by name; all processes see the same ones. What `SharedMemory` gives; /repo/teleprox/shmem.py:51, 59. -/
structure ShmMem where
  blocks : List (Nat × Bytes) := []
  deriving DecidableEq, Repr

/-- The bytes of a block. `shmem.buf`, /repo/teleprox/shmem.py:52, 60, 69. -/
def ShmMem.get (m : ShmMem) (b : Nat) : Bytes := (m.blocks.lookup b).getD []

/-- Replace the bytes of a block. Writing to `shmem.buf`, /repo/teleprox/shmem.py:53, 61. -/
def ShmMem.set (m : ShmMem) (b : Nat) (x : Bytes) : ShmMem := { m with blocks := (b, x) :: m.blocks.filter (·.1 ≠ b) }

/-- A name not in use. Part of /repo/teleprox/shmem.py:51, 59. -/
def ShmMem.fresh (m : ShmMem) : Nat := (m.blocks.map (·.1)).foldr max 0 + 1

/-- `SharedMemory(create=True, size=n)`: a new block of zeros. Simplification: exactly `n` bytes (some systems round up).
/repo/teleprox/shmem.py:51, 59. -/
def ShmMem.create (m : ShmMem) (n : Nat) : Except Exc (Nat × ShmMem) :=
  if n = 0 then .error .valueError else .ok (m.fresh, m.set m.fresh (List.replicate n 0))

/-- A numpy array on the buffer of a block: `SharedNDArray.data`. /repo/teleprox/shmem.py:52, 60, 69. -/
structure ShmView where
  block : Nat
  dtype : DType
  shape : List Nat
  strides : List Int
  offset : Nat := 0
  deriving DecidableEq, Repr

/-- The array as it reads now. Reading `data`, /repo/teleprox/shmem.py:44. -/
def ShmView.now (v : ShmView) (m : ShmMem) : NdArray := ⟨v.dtype, v.shape, v.strides, v.offset, m.get v.block, none⟩

/-- Write bytes at a position. Part of /repo/teleprox/shmem.py:53, 61. -/
def putBytes (b : Bytes) (i : Nat) (x : Bytes) : Bytes := b.take i ++ x ++ b.drop (i + x.length)

/-- `data[idx] = x` for the bytes of one element. Assignment to `data`, /repo/teleprox/shmem.py:44. -/
def ShmView.put (v : ShmView) (m : ShmMem) (idx : List Nat) (x : Bytes) : ShmMem :=
  m.set v.block (putBytes (m.get v.block) (v.offset + dot idx v.strides).toNat x)

/-- The lowest and highest displacement of an element; numpy's `offset_bounds_from_strides`. Part of /repo/teleprox/shmem.py:69. -/
def strideBounds : List Nat → List Int → Int × Int
  | n :: ns, s :: ss =>
    let (lo, hi) := strideBounds ns ss
    if n = 0 then (0, 0)
    else if 0 < s then (lo, hi + s * (n - 1)) else (lo + s * (n - 1), hi)
  | _, _ => (0, 0)

/-- `np.ndarray(shape, dtype=…, buffer=buf, strides=…)` for a buffer of `len` bytes: without strides C order, TypeError if the buffer is too small; with strides ValueError
if an element is outside. /repo/teleprox/shmem.py:52, 60, 69. -/
def npNdarray (block len : Nat) (dt : DType) (shape : List Nat) : Option (List Int) → Except Exc ShmView
  | none => if shapeSize shape * dt.itemsize ≤ len then .ok ⟨block, dt, shape, cStrides dt.itemsize shape, 0⟩ else .error .typeError
  | some st =>
    if st.length ≠ shape.length then .error .valueError
    else if shape.any (· = 0) ∨ (0 ≤ (strideBounds shape st).1 ∧ (strideBounds shape st).2 + dt.itemsize ≤ len) then .ok ⟨block, dt, shape, st, 0⟩
    else .error .valueError

/-- A `SharedNDArray`. /repo/teleprox/shmem.py:40-46. -/
structure SharedArr where
  view : ShmView
  close : Bool
  deriving DecidableEq, Repr

/-- A process: the shared memory, and its list `all_shmem` (names of blocks). /repo/teleprox/shmem.py:10. -/
structure ShmSt where
  mem : ShmMem := {}
  all : List Nat := []
  deriving DecidableEq, Repr

/-- `SharedNDArray(shmem, data, close)`; /repo/teleprox/shmem.py:40-46. -/
def ShmSt.wrap (s : ShmSt) (v : ShmView) (close : Bool) : SharedArr × ShmSt := (⟨v, close⟩, { s with all := s.all ++ [v.block] })

/-- Assign to every element; `data[:] = …` writes each element. /repo/teleprox/shmem.py:53, 61. -/
def ShmView.assign (v : ShmView) (m : ShmMem) (f : List Nat → Bytes) : ShmMem := (indices v.shape).foldl (fun m idx => v.put m idx (f idx)) m

/-- `SharedNDArray.copy(arr, close)`; /repo/teleprox/shmem.py:56-62. `[:]` does not work without dimensions. -/
def ShmSt.copy (s : ShmSt) (a : NdArray) (close : Bool) : Except Exc (SharedArr × ShmSt) :=
  match s.mem.create (shapeSize a.shape * a.dtype.itemsize) with
  | .error e => .error e
  | .ok (b, mem) =>
    match npNdarray b (shapeSize a.shape * a.dtype.itemsize) a.dtype a.shape none with
    | .error e => .error e
    | .ok v =>
      if a.shape = [] then .error .indexError
      else .ok ({ s with mem := v.assign mem a.elem }.wrap v close)

/-- `SharedNDArray.zeros(shape, dtype, close)`; /repo/teleprox/shmem.py:48-54. `np.prod(())` is the float 1.0, which is no size. -/
def ShmSt.zeros (s : ShmSt) (shape : List Nat) (dt : DType) (close : Bool) : Except Exc (SharedArr × ShmSt) :=
  if shape = [] then .error .typeError
  else
    match s.mem.create (shapeSize shape * dt.itemsize) with
    | .error e => .error e
    | .ok (b, mem) =>
      match npNdarray b (shapeSize shape * dt.itemsize) dt shape none with
      | .error e => .error e
      | .ok v => .ok ({ s with mem := v.assign mem fun _ => List.replicate dt.itemsize 0 }.wrap v close)

/-- What is pickled: the block, shape, dtype and strides; /repo/teleprox/shmem.py:64-65. -/
def SharedArr.reduce (a : SharedArr) : Nat × List Nat × DType × List Int := (a.view.block, a.view.shape, a.view.dtype, a.view.strides)

/-- `__reload__`, in a process that shares the memory; /repo/teleprox/shmem.py:67-70. -/
def ShmSt.reload (s : ShmSt) (p : Nat × List Nat × DType × List Int) : Except Exc (SharedArr × ShmSt) :=
  match npNdarray p.1 (s.mem.get p.1).length p.2.2.1 p.2.1 (some p.2.2.2) with
  | .error e => .error e
  | .ok v => .ok (s.wrap v false)

/-- What happens to a block at the end. /repo/teleprox/shmem.py:73-82. -/
inductive ShmAct where
  | closed (b : Nat)
  | unlinked (b : Nat)
  deriving DecidableEq, Repr

/-- The loop of `close_all`; /repo/teleprox/shmem.py:73-82. `shmem.close` is a method of the block, always true. `unlink` may raise; FileNotFoundError (`other "FileNotFoundError"`)
is caught. The result is the exception that ends it, if any. -/
def closeBlocks (unlink : Nat → Except Exc Unit) : List Nat → List ShmAct × Option Exc
  | [] => ([], none)
  | b :: r =>
    match unlink b with
    | .ok () =>
      let (acts, e) := closeBlocks unlink r
      (.closed b :: .unlinked b :: acts, e)
    | .error (.other "FileNotFoundError") =>
      let (acts, e) := closeBlocks unlink r
      (.closed b :: acts, e)
    | .error e => ([.closed b], some e)

/-- `close_all`; the list is emptied unless an exception came. /repo/teleprox/shmem.py:73-82. -/
def ShmSt.closeAll (s : ShmSt) (unlink : Nat → Except Exc Unit) : List ShmAct × Option Exc × ShmSt :=
  match closeBlocks unlink s.all with
  | (acts, none) => (acts, none, { s with all := [] })
  | (acts, some e) => (acts, some e, s)

end Verif
