import Verif.Load.Read
import Verif.Slice.Spec
import Verif.Dist.Spec
import Mathlib.Data.List.Forall2

/-!
# What a read with a selection should give
-/
namespace Verif.Load

open Verif.Dist (NArr)
open Verif.Slice (FileSel)
open Verif.Reshape (InShape)

/-- The positions a selection names along an axis of length `n`: for a slice with a positive step those of
Python; for an increasing list within the axis the list. The slice must not be inverted. -/
inductive Picks (n : Nat) : FileSel → List Nat → Prop
  | slc (s : Slice.PySlice) : 0 < s.step.getD 1 →
      min (Slice.Spec.ascFrom n s.start) n ≤ max (Slice.Spec.ascTo n s.stop) 0 →
      Picks n (.slc s) (Slice.Spec.positions n s.start s.stop (s.step.getD 1))
  | list (l : List Nat) : l.Pairwise (· < ·) → (∀ x ∈ l, x < n) → Picks n (.list (l.map fun x : Nat => (x : Int))) l

/-- `R` is the array `G` restricted to the positions `pss` along its axes. -/
structure Selected {α : Type} (G : NArr α) (pss : List (List Nat)) (R : NArr α) : Prop where
  shape : R.shape = pss.map List.length
  elems : ∀ i i', InShape i R.shape → List.Forall₂ (fun (x : List Nat × Nat) j => x.1[x.2]? = some j) (pss.zip i) i' →
    R.val i = G.val i'

/-- The selection for all axes: missing entries at the end are full slices. -/
def Covering (naxis : Nat) (sel : Option (List FileSel)) (es : List FileSel) : Prop :=
  es.length = naxis ∧ ∃ k, es = sel.getD [] ++ List.replicate k (.slc {})

/-- The bytes of the part that process `r` of `size` has of an array distributed over axis `a`. -/
def localBytes (item : Nat) (shape : List Nat) (a size r : Nat) : Nat :=
  (shape.set a (Mpi.blockLen (shape.getD a 0) size r)).prod * item

/-- A transfer of at most `p / q` bytes at a time is possible: the file is not open for parallel access;
or there is something to transfer, and if `m` transfers are needed then there is a second axis that can be
divided in `m`. -/
def Transferable (io : Io) (shape : List Nat) (a size : Nat) : Prop :=
  io.isMpi = false ∨
  (∃ r < size, 0 < localBytes io.item shape a size r) ∧
    ∀ m, (∀ r < size, localBytes io.item shape a size r * io.q ≤ m * io.p) →
      (∀ m', (∀ r < size, localBytes io.item shape a size r * io.q ≤ m' * io.p) → m ≤ m') →
      m = 1 ∨ ∃ (i n : Nat), i ≠ a ∧ shape[i]? = some n ∧ m ≤ n

end Verif.Load
