import Verif.Dist.Np
import Verif.Split.Model

/-!
# Model of distributed arrays with their records

One process's `MPIArray` (`caput/mpiarray.py`): the local array and everything recorded beside it.
-/
namespace Verif.Dist

/-- A communicator as one process sees it. -/
structure Comm where
  ident : Nat
  size : Nat
  rank : Nat
  deriving DecidableEq, Repr

/-- mpiarray.py:510-590: the local array and the attributes `_global_shape`, `_axis`, `_local_shape`,
`_local_offset`, `_comm`. -/
structure MArr (α : Type) where
  arr : NArr α
  gshape : List Nat
  axis : Int
  lshape : List Nat
  loff : List Nat
  comm : Comm

/-- mpiarray.py:643-687 `_view_from_data_and_params`. -/
def viewFrom {α : Type} (A : NArr α) (axis : Int) (glen start : Nat) (comm : Comm) :
    Except PyErr (MArr α) := do
  let gshape ← pySet A.shape axis glen
  let loff ← pySet (List.replicate A.shape.length 0) axis start
  pure { arr := A, gshape := gshape, axis := axis, lshape := A.shape, loff := loff, comm := comm }

/-- The first local index of `n` split over the communicator (`mpitools.split_local`; zero processes do
not occur). -/
def localStart (n : Nat) (c : Comm) : Nat :=
  match Split.splitLocal n c.size c.rank with
  | .ok x => x.2.1
  | .error _ => 0

/-- mpiarray.py:2049-2106 `__array_finalize__`, called by `numpy` for a view of `obj` when the view has
the shape `seen`: the axis is that of `obj`, and the rest follows from it. -/
def finalize {α : Type} (obj : MArr α) (seen : List Nat) (data : NArr α) : Except PyErr (MArr α) := do
  let axlen ← pyGet obj.gshape obj.axis
  let gshape ← pySet seen obj.axis axlen
  let loff ← pySet (List.replicate seen.length 0) obj.axis (localStart axlen obj.comm)
  pure { arr := data, gshape := gshape, axis := obj.axis, lshape := seen, loff := loff, comm := obj.comm }

/-- The ways to call `transpose`: with any number of integers, with one tuple or list, with `None`. -/
inductive AxesArg where
  | ints (l : List Int)
  | seq (l : List Int)
  | none
  deriving DecidableEq, Repr

/-- What `numpy` makes of the arguments: without any, and with `None`, the axes are reversed. -/
def npAxes : AxesArg → Option (List Int)
  | .ints [] => Option.none
  | .ints l => some l
  | .seq l => some l
  | .none => Option.none

/-- mpiarray.py:1383-1386: the axes that the attributes are taken from. `None` stays as it is and cannot
be used as an index at line 1388. -/
def ownAxes (n : Nat) : AxesArg → Except PyErr (List Int)
  | .seq l => .ok l
  | .ints [] => .ok ((List.range n).reverse.map fun (k : Nat) => (k : Int))
  | .ints l => .ok l
  | .none => .error .typeError

/-- mpiarray.py:1362-1395 `transpose`. `numpy` makes the view before it permutes the lengths, so
`__array_finalize__` sees the shape of the original; what it sets is replaced afterwards. -/
def transpose {α : Type} (A : MArr α) (arg : AxesArg) : Except PyErr (MArr α) := do
  let t ← npTranspose A.arr (npAxes arg)
  let _ ← finalize A A.arr.shape t
  let axes ← ownAxes A.arr.shape.length arg
  let gshape ← axes.mapM (pyGet A.gshape)
  let lshape ← axes.mapM (pyGet A.lshape)
  let loff ← axes.mapM (pyGet A.loff)
  match axes.idxOf? A.axis with
  | Option.none => .error .valueError
  | some b => pure { arr := t, gshape := gshape, axis := b, lshape := lshape, loff := loff, comm := A.comm }

/-- The attribute `T`, which the class does not define: `numpy` reverses the axes of the view and only
`__array_finalize__` sets the attributes. -/
def attrT {α : Type} (A : MArr α) : Except PyErr (MArr α) := do
  let t ← npTranspose A.arr Option.none
  finalize A A.arr.shape t

end Verif.Dist
