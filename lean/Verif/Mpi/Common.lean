import Verif.Mpi.Model

/-!
# Model of the conversion between common and distributed datasets

Models `dataset_common_to_distributed` and `dataset_distributed_to_common` of
`caput/memdata/_memh5.py` for the data (attributes are copied by `copyattrs`, see C33) and
`gather_local` of `caput/util/mpitools.py`.
-/
namespace Verif.Mpi

variable {d : Nat} {α : Type}

/-- _memh5.py:938-946: the new local array of process `r`. `dset[sd:ed]` takes rows of the *first*
axis, whatever axis is to be distributed. `junk` is the content of the fresh local array. A dataset
that is distributed already is redistributed instead (C04). -/
def commonToDist (G : Arr d α) (axis : Int) (P r : Nat) (junk : Idx d → α) : Except PyErr (Arr d α) :=
  match axisOf d axis with
  | none => .error .indexError
  | some a =>
    let md : Arr d α := ⟨upd G.shape a (num (G.shape a) P r), junk⟩
    let first : Fin d := ⟨0, Nat.lt_of_le_of_lt (Nat.zero_le _) a.isLt⟩
    md.assign md.full (G.slice (upd G.full first (bounds (G.shape a) P r)))

/-- `np.prod(local_size) > 0` (mpitools.py:620, 629). -/
def nonEmpty (A : Arr d α) : Bool := decide (∀ k, 0 < A.shape k)

/-- mpitools.py:632-637: where the array of a process goes: `local_start` and `local_size`. The local
offset is 0 except along the distributed axis (mpiarray.py:618-619). -/
def subarray (gs : Idx d) (a : Fin d) (P : Nat) (loc : Nat → Arr d α) (r : Nat) : Sl d :=
  fun k =>
    (upd (fun _ => 0) a (bounds (gs a) P r).1 k,
      upd (fun _ => 0) a (bounds (gs a) P r).1 k + (loc r).shape k)

/-- _memh5.py:984-996 and mpitools.py:585-649: the global array of one process after the arrays of all
processes have been gathered onto it. On one process `gather_local` indexes the array with a list of
slices, which `numpy` (from 1.23 on; the project requires 1.24) rejects with `IndexError`. On several
processes the non-empty arrays are received; `order` is the order in which they arrive. -/
def distToCommon (gs : Idx d) (a : Fin d) (P : Nat) (loc : Nat → Arr d α) (zero : α)
    (order : List Nat) : Except PyErr (Arr d α) :=
  if P = 1 then .error .indexError
  else
    (order.filter fun r => nonEmpty (loc r)).foldlM
      (fun A r => A.assign (subarray gs a P loc r) (loc r)) ⟨gs, fun _ => zero⟩

end Verif.Mpi
