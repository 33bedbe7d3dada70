import Verif.Model.Value
/-!
# Numpy arrays as far as the serializers use them

The numpy operations themselves are library code; they are modelled from numpy's documentation. The parts of
/repo/teleprox/serializer.py that use them are lines 108-115, 163-172, 294-302 and 314-318.
-/
namespace Verif

/-- All multi-indices of a shape in C order.
Order of the elements in `tobytes` and `reshape`, used at /repo/teleprox/serializer.py:113, 172. -/
def indices : List Nat → List (List Nat)
  | [] => [[]]
  | n :: ns => (List.range n).flatMap (fun i => (indices ns).map (i :: ·))

/-- Number of elements of a shape.
Used by `reshape`, /repo/teleprox/serializer.py:172, 318, and `np.prod(shape)`, /repo/teleprox/shmem.py:51. -/
def shapeSize (s : List Nat) : Nat := s.foldr (· * ·) 1

/-- Displacement of a multi-index. Element access of numpy arrays, used at /repo/teleprox/serializer.py:110, 113, 172. -/
def dot : List Nat → List Int → Int
  | i :: is, s :: ss => i * s + dot is ss
  | _, _ => 0

/-- C-order strides of a shape.
Layout of the arrays made at /repo/teleprox/serializer.py:110, 172, 318 and /repo/teleprox/shmem.py:52, 60. -/
def cStrides (itemsize : Nat) : List Nat → List Int
  | [] => []
  | _ :: ns => ((itemsize * shapeSize ns : Nat) : Int) :: cStrides itemsize ns

/-- The byte of a buffer at a position; positions outside never occur in well-formed arrays.
Reading a buffer, /repo/teleprox/serializer.py:113, 172. -/
def byteAt (b : Bytes) (i : Int) : UInt8 := if 0 ≤ i then b.getD i.toNat 0 else 0

/-- The bytes of the element at a multi-index. Element access, used at /repo/teleprox/serializer.py:110, 113. -/
def NdArray.elem (a : NdArray) (idx : List Nat) : Bytes :=
  (List.range a.dtype.itemsize).map (fun (k : Nat) => byteAt a.buf (a.offset + dot idx a.strides + k))

/-- `arr.flags['C_CONTIGUOUS']` for an array with elements (numpy's relaxed rule: dimensions of length one are ignored). The second
component is the expected stride of the next outer dimension. Used at /repo/teleprox/serializer.py:109, 111, 296, 298. -/
def contigAux (itemsize : Nat) : List Nat → List Int → Bool × Nat
  | [], _ => (true, itemsize)
  | _ :: _, [] => (false, itemsize)
  | n :: ns, s :: ss =>
    let (ok, sd) := contigAux itemsize ns ss
    if n = 1 then (ok, sd) else (ok && decide (s = sd), sd * n)

/-- See `contigAux`; an array without elements is contiguous. /repo/teleprox/serializer.py:109, 111, 296, 298. -/
def NdArray.cContiguous (a : NdArray) : Bool :=
  a.shape.any (· = 0) || (contigAux a.dtype.itemsize a.shape a.strides).1

/-- `arr.tobytes()`: the elements in C order. /repo/teleprox/serializer.py:113. -/
def NdArray.tobytes (a : NdArray) : Bytes := (indices a.shape).flatMap a.elem

/-- `np.ascontiguousarray(arr)`: a C-ordered copy as a plain ndarray, at least one-dimensional.
/repo/teleprox/serializer.py:110, 297. -/
def NdArray.ascontiguous (a : NdArray) : NdArray :=
  let shape := if a.shape = [] then [1] else a.shape
  { dtype := a.dtype, shape := shape, strides := cStrides a.dtype.itemsize shape, offset := 0,
    buf := a.tobytes, sub := none }

/-- `obj.data` as base64 reads it: the memory of the array from its first element on. Raises for dtypes without buffer support and for arrays that are
not contiguous. /repo/teleprox/serializer.py:300. -/
def NdArray.dataView (a : NdArray) : Except Exc Bytes :=
  if a.dtype.bufferable = false then .error .valueError
  else if a.cContiguous = false then .error (.other "BufferError")
  else .ok ((List.range (shapeSize a.shape * a.dtype.itemsize)).map fun (k : Nat) => byteAt a.buf (a.offset + k))

/-- `np.frombuffer(data, dtype=dt)`. /repo/teleprox/serializer.py:172, 318. -/
def frombuffer (data : Bytes) (dt : DType) : Except Exc NdArray :=
  if dt.kind = .object then .error .valueError
  else if dt.itemsize = 0 then .error .valueError
  else if data.length % dt.itemsize ≠ 0 then .error .valueError
  else .ok { dtype := dt, shape := [data.length / dt.itemsize], strides := [(dt.itemsize : Int)],
             offset := 0, buf := data, sub := none }

/-- The dimensions meant by a shape for `n` elements: one of them may be negative and is worked out from the others (`_fix_unknown_dimension` of numpy).
/repo/teleprox/serializer.py:172, 318. -/
def fixShape (n : Nat) (shape : List Int) : Option (List Nat) :=
  let known := shapeSize ((shape.filter (0 ≤ ·)).map Int.toNat)
  match (shape.filter (· < 0)).length with
  | 0 => if known = n then some (shape.map Int.toNat) else none
  | 1 => if known = 0 ∨ n % known ≠ 0 then none else some (shape.map fun i => if i < 0 then n / known else i.toNat)
  | _ => none

/-- `arr.reshape(shape)` of a one-dimensional contiguous array. /repo/teleprox/serializer.py:172, 318. -/
def NdArray.reshape (a : NdArray) (shape : List Int) : Except Exc NdArray :=
  match fixShape (shapeSize a.shape) shape with
  | some sh => .ok { a with shape := sh, strides := cStrides a.dtype.itemsize sh }
  | none => .error .valueError

end Verif
