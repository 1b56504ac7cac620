import Verif.Split.Model

/-!
# Arrays with `d` axes

Just enough of `numpy` basic slicing and slice assignment for the distributed array code. An index
is a function from axes to positions; `val` is only meaningful at indices inside `shape`, and every
specification looks at such indices only. Exceptions are values of `PyErr`.
-/
namespace Verif.Mpi

/-- Python exceptions raised by the modelled functions. -/
inductive PyErr where
  | axisException
  | valueError
  | indexError
  | memoryError
  | attributeError
  deriving DecidableEq, Repr

/-- An index into an array with `d` axes. -/
abbrev Idx (d : Nat) := Fin d → Nat

/-- `f` with the value at `k` replaced (a Python list or dict item assignment). -/
def upd {ι β : Type} [DecidableEq ι] (f : ι → β) (k : ι) (v : β) : ι → β :=
  fun j => if j = k then v else f j

/-- A `numpy` array with `d` axes: its shape and its elements. -/
structure Arr (d : Nat) (α : Type) where
  shape : Idx d
  val : Idx d → α

/-- A tuple of `slice(start, stop)`, one for each axis, with `0 ≤ start`, `0 ≤ stop`. -/
abbrev Sl (d : Nat) := Fin d → Nat × Nat

namespace Arr
variable {d : Nat} {α : Type}

/-- `[slice(None)] * ndim`. -/
def full (A : Arr d α) : Sl d := fun k => (0, A.shape k)

/-- Basic slicing `A[sl]`. As in `numpy` both ends of each slice are clipped to the axis. -/
def slice (A : Arr d α) (sl : Sl d) : Arr d α where
  shape := fun k => min (sl k).2 (A.shape k) - min (sl k).1 (A.shape k)
  val := fun i => A.val fun k => i k + min (sl k).1 (A.shape k)

/-- Can a value of shape `s` be broadcast to shape `t` (with the same number of axes)? -/
def fitsIn (s t : Idx d) : Prop := ∀ k, s k = t k ∨ s k = 1

instance (s t : Idx d) : Decidable (fitsIn s t) := inferInstanceAs (Decidable (∀ _, _))

/-- Is the index inside the slice of the array? -/
def inSlice (A : Arr d α) (sl : Sl d) (i : Idx d) : Prop :=
  ∀ k, min (sl k).1 (A.shape k) ≤ i k ∧ i k < min (sl k).2 (A.shape k)

instance (A : Arr d α) (sl : Sl d) (i : Idx d) : Decidable (A.inSlice sl i) :=
  inferInstanceAs (Decidable (∀ _, _))

/-- The element of the (broadcast) value that belongs at index `i` of the assigned slice. -/
def bcastIdx (A : Arr d α) (sl : Sl d) (V : Arr d α) (i : Idx d) : Idx d :=
  fun k => if V.shape k = 1 then 0 else i k - min (sl k).1 (A.shape k)

/-- The array after the elements inside the slice have been replaced. -/
def put (A : Arr d α) (sl : Sl d) (V : Arr d α) : Arr d α where
  shape := A.shape
  val := fun i => if A.inSlice sl i then V.val (A.bcastIdx sl V i) else A.val i

/-- Slice assignment `A[sl] = V` with `numpy` broadcasting; a value that does not fit raises
`ValueError`. -/
def assign (A : Arr d α) (sl : Sl d) (V : Arr d α) : Except PyErr (Arr d α) :=
  if fitsIn V.shape (A.slice sl).shape then .ok (A.put sl V) else .error .valueError

end Arr
end Verif.Mpi
