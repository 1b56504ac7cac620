import Verif.Load.Spec
import Verif.Load.Select

/-!
# What loading with selections along axes should give
-/
namespace Verif.Load

open Verif.Dist (NArr MArr Comm IsBlock)
open Verif.Slice (FileSel)
open Verif.Reshape (InShape)

/-- The dataset at `path` has the axes `axes`: a dataset of the class, or the index map of one of its axes. -/
def AxesOf (cls : Cls) (path : Str) (axes : List (Option Str)) : Prop :=
  (∃ name, (name, axes) ∈ cls.spec ∧ path = "/".toList ++ name) ∨
  (∃ ax, ax ∈ cls.axes ∧ path = "/index_map/".toList ++ ax ∧ axes = [some ax])

/-- The keyword arguments ask for the selection `s` along the axis `ax`. -/
def Asked (kw : List (Str × FileSel)) (ax : Str) (s : FileSel) : Prop := (ax ++ "_sel".toList, s) ∈ kw

/-- The positions that should be kept along an axis of length `n`. -/
def Kept (kw : List (Str × FileSel)) (n : Nat) (ax : Option Str) (ps : List Nat) : Prop :=
  (∃ a s, ax = some a ∧ Asked kw a s ∧ Picks n s ps) ∨
  ((∀ a s, ax = some a → ¬ Asked kw a s) ∧ ps = List.range n)

/-- The positions that should be kept along the axes of a dataset in a file: those asked for if it belongs to
the class; otherwise all. -/
structure Wanted {α : Type} (cls : Cls) (kw : List (Str × FileSel)) (e : FileDs α) (pss : List (List Nat)) : Prop where
  length : pss.length = e.data.shape.length
  own : ∀ axes, AxesOf cls e.path axes → axes.length = e.data.shape.length ∧
    ∀ (k : Nat) n ax ps, e.data.shape[k]? = some n → axes[k]? = some ax → pss[k]? = some ps → Kept kw n ax ps
  other : (∀ axes, ¬ AxesOf cls e.path axes) → pss = e.data.shape.map List.range

/-- What a process has of the array `R` that was loaded. -/
inductive Shows {α : Type} (distributed : Bool) (c : Comm) (dist : Option Int) (R : NArr α) : Proto.Data α → Prop
  | common (A : NArr α) : (distributed = false ∨ dist = none) → A.shape = R.shape →
      (∀ i, InShape i R.shape → A.val i = R.val i) → Shows distributed c dist R (.common A)
  | dist (A : MArr α) (axis : Int) (a : Nat) : distributed = true → dist = some axis →
      Dist.Names R.shape.length axis a → IsBlock R a c A → Shows distributed c dist R (.dist A)

/-- Names of datasets and keywords are not repeated; datasets of the class are not in groups. -/
structure WellFormed (cls : Cls) (kw : List (Str × FileSel)) : Prop where
  names : (cls.spec.map Prod.fst).Nodup
  flat : ∀ x ∈ cls.spec, '/' ∉ x.1
  kw : (kw.map Prod.fst).Nodup

/-- The files that can be read with the selections: every dataset has an axis; at most one axis of a dataset
has a list; a list from a Zarr file is not empty and the dataset is not distributed; a transfer is possible;
index maps are not distributed. -/
structure CanRead {α : Type} (fmt : Format) (io : Io) (distributed : Bool) (c : Comm) (cls : Cls) (kw : List (Str × FileSel))
    (e : FileDs α) (pss : List (List Nat)) : Prop where
  path : ∃ t, e.path = "/".toList ++ t ∧ t.head? ≠ some '/'
  axis : e.data.shape ≠ []
  lists : ∀ axes, AxesOf cls e.path axes → ∀ (k k' : Nat) a a' l l', axes[k]? = some (some a) → axes[k']? = some (some a') →
    Asked kw a (.list l) → Asked kw a' (.list l') → k = k'
  zarr : fmt = .zarr → ∀ axes, AxesOf cls e.path axes → ∀ a l, some a ∈ axes → Asked kw a (.list l) →
    l ≠ [] ∧ (distributed = false ∨ e.dist = none)
  dist : distributed = true → ∀ axis, e.dist = some axis → (∀ ax, e.path ≠ "/index_map/".toList ++ ax) ∧
    ∃ a, Dist.Names e.data.shape.length axis a ∧ (fmt = .hdf5 → Transferable io (pss.map List.length) a c.size)

/-- The shape of the whole dataset. -/
def wholeShape {α : Type} : Proto.Data α → List Nat
  | .common A => A.shape
  | .dist A => A.gshape

end Verif.Load
