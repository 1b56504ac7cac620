/-!
# Model of the MPI-IO partitioning

Models `MPIArray._partition_io` (caput/mpiarray.py:1703-1762).
-/
namespace Verif.PartIO

/-- Exceptions. -/
inductive PyErr where
  | runtimeError
  | zeroDivision
  deriving DecidableEq, Repr

/-- A distributed array as far as partitioning sees it: the global shape, the distributed axis, the
item size, and the length of the distributed axis on each process. -/
structure Arr where
  shape : List Nat
  axis : Nat
  item : Nat
  lens : List Nat
  deriving DecidableEq, Repr

/-- `MPIArray.local_shape` of the process with local length `len`. -/
def Arr.localShape (A : Arr) (len : Nat) : List Nat := A.shape.set A.axis len

/-- `ndarray.nbytes` of the process with local length `len`. -/
def Arr.nbytes (A : Arr) (len : Nat) : Nat := (A.localShape len).prod * A.item

/-- mpiarray.py:1724: `comm.allreduce(self.nbytes, op=MAX)`. -/
def Arr.largest (A : Arr) : Nat := (A.lens.map A.nbytes).foldl max 0

/-- mpiarray.py:1723-1725: `ceil(largest_size / threshold_bytes)` with the threshold in bytes as the
fraction `p / q` (exact arithmetic instead of floats). -/
def Arr.minAxisSize (A : Arr) (p q : Nat) : Nat := (A.largest * q + p - 1) / p

/-- mpiarray.py:1736-1746: the first axis other than the distributed one that is long enough. -/
def findAxis (axis k : Nat) : List Nat → Nat → Option Nat
  | [], _ => none
  | l :: ls, i => if i ≠ axis ∧ k ≤ l then some i else findAxis axis k ls (i + 1)

/-- mpiarray.py:1750: `list(range(0, axis_length + 1, slice_length))` for a positive step. -/
def boundariesRange (len step : Nat) : List Nat := (List.range (len / step + 1)).map (· * step)

/-- mpiarray.py:1750-1755: the boundaries with the axis length added at the end if needed. -/
def boundaries (len step : Nat) : List Nat :=
  let b := boundariesRange len step
  if b.getLast? = some len then b else b ++ [len]

/-- `itertools.pairwise`. -/
def pairwise (l : List Nat) : List (Nat × Nat) := l.zip l.tail

/-- mpiarray.py:1703-1762 `_partition_io(skip, threshold)` on the process with local length `len`. -/
def partitionIO (A : Arr) (len : Nat) (skip : Bool) (p q : Nat) :
    Except PyErr (Nat × List (Nat × Nat)) :=
  let k := A.minAxisSize p q
  if skip ∨ k = 1 then
    match (A.localShape len)[0]? with
    | some n => .ok (0, [(0, n)])
    | none => .error .runtimeError
  else if A.shape.length = 1 then .error .runtimeError
  else
    match findAxis A.axis k A.shape 0 with
    | none => .error .runtimeError
    | some ax =>
      match A.shape[ax]? with
      | none => .error .runtimeError
      | some n =>
        if k = 0 then .error .zeroDivision
        else .ok (ax, pairwise (boundaries n (n / k)))

end Verif.PartIO
