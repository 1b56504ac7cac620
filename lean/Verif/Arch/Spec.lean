import Verif.Arch.Model
import Verif.Store.Spec
import Verif.Dist.Spec

/-!
# What it means that a saved tree is read back
-/
namespace Verif.Arch

open Verif.Dist (NArr MArr Comm IsBlock)
open Verif.Store (Opts Same)
open Verif.Reshape (InShape)
open Verif.Load (Transferable Io)

variable {α : Type}

/-- The attributes are the same, except for the three that tell what is distributed. -/
def Kept (a a' : Attrs) : Prop :=
  ∀ k, k ≠ "__memh5_distributed_file" → k ≠ "__memh5_distributed_dset" → k ≠ "__memh5_distributed_axis" → a' k = a k

/-- An array of a tree that is distributed, and the axis. -/
structure Whole (α : Type) where
  arr : NArr α
  axis : Nat

/-- The entry can be saved by `size` processes as part of a distributed tree: a common dataset has an axis, and if it has strings their
conversion is asked for; a distributed dataset consists of the blocks of an array, has no strings, and can be written (C76): in parallel by all processes
that there are, without compression if some process has no data; or one process after the other; or to Zarr. -/
def Savable (C : Ctx α) (convert : Bool) (w : Whole α) : Entry α → Prop
  | .grp _ => True
  | .com arr dt _ _ => arr.shape ≠ [] ∧ (C.str.uni dt = true → convert = true)
  | .dis blk mov dt o _ => C.str.uni dt = false ∧ ∃ ident, (∀ r < C.size, IsBlock w.arr w.axis ⟨ident, C.size, r⟩ (blk r)) ∧
      ((C.fmt = .hdf5 ∧ C.env.mpi = true ∧ C.size = C.env.world ∧ Transferable ⟨true, C.env.item, C.env.p, C.env.q⟩ w.arr.shape w.axis C.size ∧
          (o.comp = none ∨ ∀ n, w.arr.shape[w.axis]? = some n → C.size ≤ n)) ∨
        (C.fmt = .hdf5 ∧ C.env.mpi = false ∧ ∀ r < C.size, IsBlock w.arr 0 ⟨ident, C.size, r⟩ (mov r)) ∨
        C.fmt = .zarr)

/-- Strings come back as they were: unicode strings that are converted both when saving and when reading, or byte strings that are not converted; or there are none. -/
def TextBack (S : Strings α) (convert convert' : Bool) (arr : NArr α) (dt : Nat) : Prop :=
  (S.uni dt = false ∧ (S.byt dt = false ∨ convert' = false)) ∨
  (S.uni dt = true ∧ convert = true ∧ convert' = true ∧ S.byt (S.dtype dt) = true ∧ S.udtype (S.dtype dt) = dt ∧
    ∀ i, InShape i arr.shape → S.uelem (S.elem (arr.val i)) = arr.val i)

/-- The entry can be read: strings come back, and for a distributed dataset in HDF5 the transfer can be divided. `par` tells whether datasets are to be distributed. -/
def Readable (R : RCtx α) (convert convert' par : Bool) (w : Whole α) : Entry α → Prop
  | .grp _ => True
  | .com arr dt _ _ => TextBack R.str convert convert' arr dt
  | .dis _ _ dt _ _ =>
    if par then R.fmt = .hdf5 → Transferable R.io w.arr.shape w.axis R.comm.size
    else R.str.byt dt = false ∨ convert' = false

/-- What is read in distributed form is the entry: groups are groups; common datasets are common, and have the same elements of the same type; a distributed dataset
is the block of this process of the same array, over the same axis. -/
def Back (c : Comm) (w : Whole α) : Entry α → Got α → Prop
  | .grp a, g => ∃ a', g = .grp a' ∧ Kept a a'
  | .com arr dt _ a, g => ∃ A o a', g = .ds (.common A) dt o a' ∧ Same A arr ∧ Kept a a'
  | .dis _ _ dt _ a, g => ∃ A o a', g = .ds (.dist A) dt o a' ∧ IsBlock w.arr w.axis c A ∧ Kept a a'

/-- What is read in common form is the entry, where a distributed dataset is the whole array. Chunks and compression are kept. -/
def BackWhole (w : Whole α) : Entry α → Got α → Prop
  | .grp a, g => ∃ a', g = .grp a' ∧ Kept a a'
  | .com arr dt o a, g => ∃ A a', g = .ds (.common A) dt o a' ∧ Same A arr ∧ Kept a a'
  | .dis _ _ dt o a, g => ∃ A a', g = .ds (.common A) dt o a' ∧ Same A w.arr ∧ Kept a a'

/-- Nothing but this file is different. -/
def OnlyFile (f : String) (d d' : Disk α) : Prop := ∀ f', f' ≠ f → d'.fs f' = d.fs f' ∧ ∀ p, d'.at' f' p = d.at' f' p

/-- Each path is there once, and the root is a group. -/
def WellFormed (t : List (String × Entry α)) : Prop := (t.map Prod.fst).Nodup ∧ ∀ e, ("/", e) ∈ t → ∃ a, e = .grp a

end Verif.Arch
