import Verif.Store.Model
import Verif.Split.Share
import Verif.Mpi.Order

/-!
# Model of one process, with `mpi4py` and without

Models what depends on the communicator (`caput/util/mpitools.py:42-135, 463-562, 652-722`) in `MPIArray.__new__`, `wrap`, `copy`,
`allreduce`, `from_file`, `to_hdf5`, `to_zarr`, `_to_hdf5_serial`, `_partition_io` and `__array_ufunc__` (`caput/mpiarray.py`) for a program
that runs on one process. `mpi` tells whether `mpi4py` is installed. The rest is shared with the models of C10, C76 and C101.

Library knowledge: an attribute of `None` that it does not have is an `AttributeError`. `h5py` with parallel access needs `mpi4py`.
-/
namespace Verif.Serial

open Verif.Dist (NArr MArr Comm pyGet)
open Verif.Slice (FileSel PySlice)
open Verif.Load (Io Format)

variable {α : Type}

/-- Exceptions. -/
inductive Err where
  | attributeError
  | axisException
  | valueError
  | runtimeError
  | unsupported
  | load (e : Load.PyErr)
  | dist (e : Dist.PyErr)
  | store (e : Store.Err)
  deriving DecidableEq, Repr

/-- mpitools.py:52-54: `world`. -/
def world (mpi : Bool) : Option Comm := if mpi then some ⟨0, 1, 0⟩ else none

/-- mpitools.py:65-66: `size`. -/
def size (mpi : Bool) : Nat :=
  match world mpi with
  | some c => c.size
  | none => 1

/-- mpitools.py:62-63: `rank`. -/
def rank (mpi : Bool) : Nat :=
  match world mpi with
  | some c => c.rank
  | none => 0

/-- The names that the module defines itself (mpitools.py; those of imports and private ones left out). -/
def ownNames : List String :=
  ["world", "world_scomm", "rank", "size", "rank0", "barrier", "bcast", "allreduce", "cpu_count", "can_allocate", "available_memory_shared",
    "enable_mpi_exception_handler", "MPILogFilter", "active_comm", "active", "close", "partition_list_mpi", "mpirange", "split_all", "split_local",
    "typemap", "gather_local", "parallel_map", "transpose_blocks", "allocate_hdf5_dataset", "lock_and_write_buffer", "parallel_rows_write_hdf5"]

/-- Names of `mpi4py.MPI` that the library uses through this module. -/
def libNames : List String := ["MAX", "SUM", "BYTE", "SUCCESS", "Status", "Comm", "COMM_WORLD"]

/-- Where a name is found. -/
inductive Found where
  | own
  | lib
  deriving DecidableEq, Repr

/-- mpitools.py:91-98 `mpitools.<name>`. -/
def attr (mpi : Bool) (name : String) : Except Err Found :=
  if name ∈ ownNames then .ok .own
  else if (world mpi).isSome ∧ name ∈ libNames then .ok .lib
  else .error .attributeError

/-- mpitools.py:463-493 `partition_list_mpi` with the default communicator. -/
def partitionList (mpi : Bool) {β : Type} (xs : List β) (m : Split.Method) (draw : Nat → List Nat) : Except Split.PyErr (List β) :=
  Split.partitionListMpi xs m ((world mpi).map fun c => ⟨c.rank, c.size⟩) ⟨rank mpi, size mpi⟩ draw

/-- mpitools.py:652-722 `parallel_map` with the default communicator: line 687 asks for `None` or for one process. -/
def parallelMap (mpi : Bool) {β γ : Type} (f : β → Option γ) (xs : List β) (root : Option Nat) (m : Split.Method) (draw : Nat → List Nat) :
    Split.Fate γ :=
  match world mpi with
  | none =>
    match Split.applyAll f ((List.range xs.length).zip xs) with
    | none => .raised
    | some l => .returned (some (l.map (·.2)))
  | some c => Split.parallelMapAll f xs root m c.size draw c.rank

/-- What can be seen of a distributed array, apart from its communicator. -/
structure Seen (α : Type) where
  arr : NArr α
  gshape : List Nat
  axis : Int
  lshape : List Nat
  loff : List Nat

def seen (A : MArr α) : Seen α := ⟨A.arr, A.gshape, A.axis, A.lshape, A.loff⟩

/-- mpiarray.py:606-629 `MPIArray(shape, axis)` for an axis that is there; `split_local` uses `size` and `rank` without a communicator. -/
def newArr (mpi : Bool) (shape : List Nat) (axis : Nat) (junk : List Nat → α) : MArr α :=
  Proto.newMArr shape axis (match world mpi with
    | some c => c
    | none => ⟨0, size mpi, rank mpi⟩) junk

/-- mpiarray.py:716-743 `MPIArray.wrap(array, axis)`. The operation for the second reduction is looked up in `mpitools`. -/
def wrap (mpi : Bool) (A : NArr α) (axis : Int) : Except Err (Seen α) :=
  match pyGet A.shape axis with
  | .error _ => .error .axisException
  | .ok n =>
    match Split.splitLocal n (size mpi) (rank mpi) with
    | .error _ => .error .valueError
    | .ok (num, start, _) =>
      match attr mpi "MAX" with
      | .error e => .error e
      | .ok _ =>
        if n ≠ num then .error .axisException
        else
          match Dist.viewFrom A axis n start ⟨0, size mpi, rank mpi⟩ with
          | .error e => .error (.dist e)
          | .ok B => .ok (seen B)

/-- mpiarray.py:1614-1626 `copy`. -/
def copy (mpi : Bool) (A : MArr α) : Except Err (Seen α) := wrap mpi A.arr A.axis

/-- An argument of a universal function: `none` is no distributed array; otherwise the communicator of the array. -/
abbrev UArg := Option (Option Comm)

/-- mpiarray.py:2310-2320 `_get_common_comm`. -/
def commonComm : List UArg → Option Comm → Except Err (Option Comm)
  | [], acc => .ok acc
  | none :: l, acc => commonComm l acc
  | some c :: l, none => commonComm l c
  | some c :: l, some d => if some d = c then commonComm l (some d) else .error .valueError

/-- The ways to call a universal function. -/
inductive Method where
  | call
  | reduce
  | accumulate
  | other
  deriving DecidableEq, Repr

/-- mpiarray.py:1850-1877 `__array_ufunc__` up to the communicator; `wh` tells whether there is a `where` argument other than `True`. -/
def ufuncComm (m : Method) (wh : Bool) (args : List UArg) : Except Err Comm :=
  if m = .other then .error .unsupported
  else if wh then .error .unsupported
  else
    match commonComm args none with
    | .error e => .error e
    | .ok none => .error .runtimeError
    | .ok (some c) => .ok c

/-- mpiarray.py:876-885 `allreduce`. The message of the first exception asks for `self.comm.rank`. -/
def allreduce (mpi : Bool) (A : MArr α) : Except Err α :=
  match world mpi with
  | none => .error .attributeError
  | some _ => if A.lshape ≠ [1] then .error .valueError else .ok (A.arr.val [0])

/-- mpiarray.py:1021-1087 `from_file`. For HDF5 the division of the transfer (line 1724) asks all processes. -/
def fromFile (mpi : Bool) (fmt : Format) (io : Io) (junk : List Nat → α) (G : NArr α) (sel : Option (List FileSel)) (axis : Int) : Except Err (Seen α) :=
  let n := G.shape.length
  if axis < -n ∨ (n : Int) ≤ axis then .error (.load .axisException)
  else
    let k := (if axis < 0 then n + axis else axis).toNat
    let sl := Load.expandSel sel n
    match Load.readShape G.shape sl with
    | .error e => .error (.load e)
    | .ok gshape =>
      let A := newArr mpi gshape k junk
      let lstart := A.loff.getD k 0
      let lend := lstart + A.lshape.getD k 0
      match sl[k]?, G.shape[k]? with
      | some s, some m =>
        match Load.ofSlice (Slice.reslice s m lstart lend) with
        | .error e => .error (.load e)
        | .ok r =>
          if fmt = .hdf5 ∧ world mpi = none then .error .attributeError
          else
            match Load.readInto fmt io G (sl.set k r) k A with
            | .error e => .error (.load e)
            | .ok B => .ok (seen B)
      | _, _ => .error (.load .indexError)

/-- mpiarray.py:1089-1353, 1643-1724 `to_file` without `mpi4py`, so that `h5py` has no parallel access: the dataset is created and filled with zeros
(1670-1679), then `self.comm.Barrier()` (1685) fails. Zarr: `self.comm.rank` (1258), or `_partition_io` (1724) for an open file. With `mpi4py` it is
`Store.toFile` (C76). -/
def toFileAlone (zero : α) (junk : List Nat → α) (fs : Store.Fs α) (t : Store.Target) (create : Bool) (name : String) (dtype : Nat)
    (fmt : Format) (A : MArr α) : Store.Fs α × Option Err :=
  match fmt, t with
  | .hdf5, .path p =>
    match Store.serialCreate zero junk fs p create name dtype A with
    | .error e => (fs, some (.store e))
    | .ok f => (fs.put p f, some .attributeError)
  | .hdf5, .handle _ _ => (fs, some .valueError)
  | .zarr, .handle _ false => (fs, some .valueError)
  | .zarr, _ => (fs, some .attributeError)

end Verif.Serial
