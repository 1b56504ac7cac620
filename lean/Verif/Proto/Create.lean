import Verif.Proto.Model

/-!
# Model of `create_dataset` of groups in memory

Models `MemGroup.create_dataset` (`caput/memdata/_memh5.py:725-908`) as one process sees it, with the constructors of
datasets (1187-1206, 1387-1407) and `from_numpy_array`, `from_mpi_array` (1208-1244, 1409-1450). Names and groups are the
matter of C31 and C103, chunks of C112; they are left out here. So are `numpy` scalars as data, byte order, and a distributed
array without a communicator, which is an ordinary array here.
-/
namespace Verif.Proto

open Verif.Dist (NArr MArr Comm)

/-- What matters of the group: `distributed` (253-255) and the communicator (248-250), `none` without `mpi4py`. -/
structure Group where
  comm : Option Comm
  distributed : Bool

/-- The arguments. `T` are data type objects. -/
structure Request (T : Type) where
  shape : Option (List Nat) := none
  dtype : Option T := none
  distributed : Bool := false
  axis : Option Int := none

/-- The argument `data`. A dataset on disk has no attribute `view`; a list has no `shape`. -/
inductive Source (T α : Type) where
  | none
  | array (A : NArr α) (t : T)
  | disk (A : NArr α) (t : T)
  | mpi (M : MArr α) (t : T)
  | list

/-- `data.shape` and `data.dtype`. The shape of a distributed array is that of the local array. -/
def Source.attrs {T α : Type} : Source T α → Except PyErr (Option (List Nat × T))
  | .none => .ok .none
  | .array A t => .ok (some (A.shape, t))
  | .disk A t => .ok (some (A.shape, t))
  | .mpi M t => .ok (some (M.arr.shape, t))
  | .list => .error .attributeError

/-- `isinstance(data, mpiarray.MPIArray)`. -/
def Source.isMpi {T α : Type} : Source T α → Bool
  | .mpi _ _ => true
  | _ => false

/-- `hasattr(data, "view")`. -/
def Source.hasView {T α : Type} : Source T α → Bool
  | .array _ _ => true
  | .mpi _ _ => true
  | _ => false

/-- What else the outcome depends on: conversion between types, zero, the default type, the contents of memory that is not
set, and redistribution, on this process. -/
structure Libs (T α : Type) where
  cast : T → T → α → α
  zero : T → α
  float : T
  junk : List Nat → α
  redist : MArr α → Int → Except PyErr (MArr α)

/-- The dataset: its data and type, and whether it is the memory of the data that was given. -/
structure Made (T α : Type) where
  data : Data α
  dtype : T
  shared : Bool

/-- mpiarray.py:596-629 `MPIArray.__new__` with an axis that may be negative. -/
def newDist {α : Type} (shape : List Nat) (axis : Int) (c : Comm) (junk : List Nat → α) : Except PyErr (MArr α) :=
  if 0 ≤ axis ∧ axis < shape.length then .ok (newMArr shape axis.toNat c junk)
  else if -(shape.length : Int) ≤ axis ∧ axis < 0 then
    .ok { newMArr shape (axis + shape.length).toNat c junk with axis := axis }
  else .error .indexError

/-- Line 901: `new_dataset[:] = data[:]`. The index needs an axis on both sides. A process whose block of the new dataset is
empty assigns nothing (mpiarray.py:376-377 and 411-412). -/
def fillNew {α : Type} (f : α → α) (dst : Data α) (src : NArr α) : Except PyErr (Data α) :=
  if src.shape = [] then .error .indexError
  else
    match dst with
    | .common D =>
      if D.shape = [] then .error .indexError
      else
        match npAssign f D src with
        | .ok A => .ok (.common A)
        | .error e => .error e
    | .dist D =>
      match Dist.pyGet D.arr.shape D.axis with
      | .ok 0 => .ok (.dist D)
      | _ =>
        match npAssign f D.arr src with
        | .ok A => .ok (.dist { D with arr := A })
        | .error e => .error e

/-- Lines 875-901: a new array, into which the data is copied. -/
def copied {T α : Type} (L : Libs T α) (g : Group) (q : Request T) (dist : Bool) (shape : List Nat) (dtype : T)
    (src : Source T α) : Except PyErr (Made T α) := do
  let new : Data α ←
    if dist then
      match q.axis, g.comm with
      | some axis, some c => (newDist shape axis c L.junk).map .dist
      | _, _ => .error .runtimeError
    else .ok (.common ⟨shape, fun _ => L.zero dtype⟩)
  match src with
  | .array A t => .map (⟨·, dtype, false⟩) (fillNew (L.cast t dtype) new A)
  | .disk A t => .map (⟨·, dtype, false⟩) (fillNew (L.cast t dtype) new A)
  | .mpi M t => .map (⟨·, dtype, false⟩) (fillNew (L.cast t dtype) new M.arr)
  | _ => .ok ⟨new, dtype, false⟩

/-- Lines 832-872: the dataset is the array given. -/
def taken {T α : Type} (L : Libs T α) (g : Group) (q : Request T) (dist : Bool) (dtype : T) (src : Source T α) :
    Except PyErr (Made T α) :=
  if dist then
    match src with
    | .mpi M _ =>
      if g.comm ≠ some M.comm then .error .runtimeError
      else
        match q.axis with
        | none => .ok ⟨.dist M, dtype, true⟩
        | some axis =>
          match L.redist M axis with
          | .ok M' => .ok ⟨.dist M', dtype, axis = M.axis⟩
          | .error e => .error e
    | _ => .error .typeError
  else
    match src with
    | .array A _ => .ok ⟨.common A, dtype, true⟩
    | _ => .error .typeError

/-- Lines 825-831: is the array itself used? Every process compares the shape with that of its own array. -/
def takes {T α : Type} [DecidableEq T] (src : Source T α) (shape : List Nat) (dtype : T) : Bool :=
  match src.attrs with
  | .ok (some (s, t)) => decide (shape = s) && decide (dtype = t) && src.hasView
  | _ => false

/-- Lines 774-908. `self.comm.Barrier()` (776) comes before a missing communicator is looked at (778). -/
def createDataset {T α : Type} [DecidableEq T] (L : Libs T α) (g : Group) (q : Request T) (src : Source T α) :
    Except PyErr (Made T α) :=
  if g.distributed = true ∧ g.comm = none then .error .attributeError
  else
    match src.attrs with
    | .error e => .error e
    | .ok attrs =>
      match q.shape.or (attrs.map (·.1)) with
      | none => .error .valueError
      | some shape =>
        let dtype := (q.dtype.or (attrs.map (·.2))).getD L.float
        let dist := (q.distributed && g.comm.isSome) || src.isMpi
        if g.distributed = false ∧ dist = true then .error .runtimeError
        else if takes src shape dtype then taken L g q dist dtype src
        else copied L g q dist shape dtype src

/-- Line 848: does this process take part in a redistribution? (`redistribute` returns at once if the axis is the same.) -/
def joins {T α : Type} [DecidableEq T] (q : Request T) (M : MArr α) (t : T) : Bool :=
  takes (.mpi M t : Source T α) (q.shape.getD M.arr.shape) (q.dtype.getD t) &&
    (match q.axis with
    | none => false
    | some axis => decide (axis ≠ M.axis))

end Verif.Proto
