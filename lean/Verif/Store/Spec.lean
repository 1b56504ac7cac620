import Verif.Store.Model
import Verif.Load.Spec

/-!
# What it means that an array is stored in a file
-/
namespace Verif.Store

open Verif.Dist (NArr)
open Verif.Reshape (InShape)

variable {α : Type}

/-- The dataset with this name in this file, if there is one. -/
def look (fs : Fs α) (p name : String) : Option (Dset α) := (fs p).bind fun f => f name

/-- Nothing but the dataset `name` in the file `p` is different. -/
def OnlyThere (p name : String) (fs fs' : Fs α) : Prop :=
  (∀ q n, ¬ (q = p ∧ n = name) → look fs' q n = look fs q n) ∧ ∀ q, q ≠ p → fs' q = fs q

/-- Two arrays are the same. -/
def Same (A B : NArr α) : Prop := A.shape = B.shape ∧ ∀ i, InShape i A.shape → A.val i = B.val i

/-- The file has the array `G` under this name, as a new dataset with the options asked for or in the dataset that was there, and nothing else is different. -/
def Stored (p name : String) (G : NArr α) (dtype : Nat) (o : Opts) (fs fs' : Fs α) : Prop :=
  OnlyThere p name fs fs' ∧ ∃ d, look fs' p name = some d ∧ Same d.arr G ∧ d.dtype = dtype ∧
    match look fs p name with
    | none => (d.chunks, d.comp, d.opts) = (o.chunks, o.comp, o.opts)
    | some d₀ => (d.chunks, d.comp, d.opts) = (d₀.chunks, d₀.comp, d₀.opts)

/-- A dataset that is there already has the same shape and type. -/
def Fits (fs : Fs α) (p name : String) (shape : List Nat) (dtype : Nat) : Prop :=
  ∀ d, look fs p name = some d → d.arr.shape = shape ∧ d.dtype = dtype

/-- The file can be opened for all processes; `par` tells whether for parallel access. -/
def Opens (E : Env) (fs : Fs α) (create : Bool) (size : Nat) : Target → Bool → Prop
  | .path p, par => par = true ∧ size = E.world ∧ (create = true ∨ fs p ≠ none)
  | .handle p b, par => par = b ∧ fs p ≠ none

end Verif.Store
